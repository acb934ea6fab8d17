import Verif.Props.D3RoundTrip
import Verif.Props.D3State
/-!
# C105: the values of the elements of a database that is written as the format prescribes
-/

namespace Dyna.D3

/-- Specification: the control words announce what is written. ISTRN is a digit of IDTDT, or it can be inferred from the number of values
of a shell or a thick shell. -/
structure Layout.Ok (v : Layout) (d : Db) : Prop where
  stress : d.ioshl0 = ioWord v.shellStress v.solidStress ∧ (v.shellStress = true → v.solidStress = true)
  plastic : d.ioshl1 = ioWord v.shellPlastic v.solidPlastic ∧ (v.shellPlastic = true → v.solidPlastic = true)
  forces : d.ioshl2 = ioWord v.forces v.forces
  thickness : d.ioshl3 = ioWord v.thickness v.thickness
  points : v.points ≤ 255 ∧ (d.maxint = v.points ∨ d.maxint = -v.points ∨ d.maxint = -(10000 + v.points))
  strain : (100 ≤ d.idtdt ∧ d.idtdt / 10000 % 10 = flagWord v.strain) ∨
    (d.idtdt < 100 ∧ 0 < d.nv2d ∧ d.nv2d = v.points * (6 * flagWord v.shellStress + flagWord v.shellPlastic + d.neips) +
      8 * flagWord v.forces + 4 * flagWord v.thickness + 12 * flagWord v.strain) ∨
    (d.idtdt < 100 ∧ d.nv2d = 0 ∧ d.thicks ≠ [] ∧
      d.nv3dt = v.points * (6 * flagWord v.shellStress + flagWord v.shellPlastic + d.neips) + 12 * flagWord v.strain)

/-- Specification: the numbers of values of a solid. The strains count as history variables. -/
structure SolidVal.Ok (v : Layout) (d : Db) (x : SolidVal) : Prop where
  stress : x.stress.length = 6
  strain : x.strain.length = 6
  history : x.history.length + 6 * flagWord v.strain = d.neiph

/-- Specification: the numbers of values of an integration point. -/
structure PointVal.Ok (d : Db) (x : PointVal) : Prop where
  stress : x.stress.length = 6
  history : x.history.length = d.neips

/-- Specification: the numbers of values of a shell, which has at least three integration points. -/
structure ShellVal.Ok (v : Layout) (d : Db) (x : ShellVal) : Prop where
  points : x.points.length = v.points ∧ ∀ p ∈ x.points, p.Ok d
  three : 3 ≤ v.points
  forces : x.forces.length = 8
  thickness : x.thickness.length = 4
  strain : x.strain.length = 12

/-- Specification: the numbers of values of a thick shell, which has at least three integration points, and not more if there are history
variables. -/
structure ShellVal.ThickOk (v : Layout) (d : Db) (x : ShellVal) : Prop where
  points : x.points.length = v.points ∧ ∀ p ∈ x.points, p.Ok d
  three : 3 ≤ v.points
  memory : d.neips = 0 ∨ v.points = 3
  strain : x.strain.length = 12

/-- Specification: the numbers of values of a beam. -/
structure BeamVal.Ok (v : Layout) (x : BeamVal) : Prop where
  resultants : x.resultants.length = 6
  points : x.points.length = v.beamPoints ∧ ∀ p ∈ x.points, p.length = 5
  few : v.beamPoints ≤ 255

/-! ## Slices -/

theorem slice_at {data : List Nat} {o : Nat} {a rest : List Nat} (h : data.drop o = a ++ rest) : slice data o a.length = a := by
  unfold slice
  rw [h, List.take_left']
  rfl

theorem drop_at {data : List Nat} {o n : Nat} {a rest : List Nat} (h : data.drop o = a ++ rest) (hn : a.length = n) :
    data.drop (o + n) = rest := by
  rw [← List.drop_drop, h, ← hn, List.drop_left]

theorem only_length {b : Bool} {l : List Nat} {n : Nat} (h : l.length = n) : (only b l).length = wordsIf b n := by
  cases b
  · rfl
  · exact h

theorem sliceIf_only {data : List Nat} {o n : Nat} {b : Bool} {l rest : List Nat} (h : data.drop o = only b l ++ rest)
    (hn : l.length = n) : sliceIf b data o n = orZeros b n l := by
  cases b
  · rfl
  · show slice data o n = l
    rw [← hn]
    exact slice_at h

theorem drop_flatten {m : Nat} : ∀ {l : List (List Nat)} (_ : ∀ e ∈ l, e.length = m) {k : Nat} {w : List Nat} (_ : l[k]? = some w),
    ∃ rest, l.flatten.drop (k * m) = w ++ rest
  | [], _, k, w, h => by simp at h
  | x :: xs, hl, 0, w, h => by
    rw [List.getElem?_cons_zero, Option.some.injEq] at h
    subst h
    exact ⟨xs.flatten, by simp⟩
  | x :: xs, hl, k + 1, w, h => by
    obtain ⟨rest, e⟩ := drop_flatten (fun e he => hl e (by simp [he])) (show xs[k]? = some w by simpa using h)
    refine ⟨rest, ?_⟩
    rw [← e, List.flatten_cons, Nat.succ_mul, Nat.add_comm, ← List.drop_drop, ← hl x (by simp), List.drop_left]

/-! ## Control data -/

/-- Auxiliary: what the decoding needs of the control data. -/
structure LayoutFits (v : Layout) (c : Cda) (d : Db) : Prop where
  s0 : decide (c.ioshl.1 ≠ 0) = v.shellStress
  s1 : decide (c.ioshl.2.1 ≠ 0) = v.shellPlastic
  s2 : decide (c.ioshl.2.2.1 ≠ 0) = v.forces
  s3 : decide (c.ioshl.2.2.2 ≠ 0) = v.thickness
  o0 : decide (c.iosol.1 ≠ 0) = v.solidStress
  o1 : decide (c.iosol.2 ≠ 0) = v.solidPlastic
  points : points c = v.points
  neips : c.raw.neips = d.neips
  neiph : c.raw.neiph = d.neiph
  strain : c.istrn = some (flagWord v.strain)

theorem output_io {a b : Bool} (h : a = true → b = true) : outputFlag (ioWord a b) = (flagWord a, flagWord b) := by
  revert h
  revert a b
  decide

theorem flag_decide (b : Bool) : decide (flagWord b ≠ 0) = b := by cases b <;> rfl

theorem fits {v : Layout} {d : Db} (ok : d.Ok) (hv : v.Ok d) : LayoutFits v d.cda d := by
  have e0 : outputFlag d.ioshl0 = (flagWord v.shellStress, flagWord v.solidStress) := by rw [hv.stress.1, output_io hv.stress.2]
  have e1 : outputFlag d.ioshl1 = (flagWord v.shellPlastic, flagWord v.solidPlastic) := by rw [hv.plastic.1, output_io hv.plastic.2]
  have e2 : outputFlag d.ioshl2 = (flagWord v.forces, flagWord v.forces) := by rw [hv.forces, output_io id]
  have e3 : outputFlag d.ioshl3 = (flagWord v.thickness, flagWord v.thickness) := by rw [hv.thickness, output_io id]
  have hmax : (deletion d.maxint).2 = (v.points : Int) := by
    have h1 := hv.points
    have h2 := ok.maxint
    unfold deletion
    by_cases h3 : d.maxint ≥ 0
    · rw [if_pos h3]
      show d.maxint = _
      omega
    · rw [if_neg h3]
      by_cases h4 : d.maxint < -10000
      · rw [if_pos h4]
        show d.maxint * -1 - 10000 = _
        omega
      · rw [if_neg h4]
        show d.maxint * -1 = _
        omega
  refine ⟨?_, ?_, ?_, ?_, ?_, ?_, ?_, rfl, rfl, ?_⟩
  · show decide ((outputFlag d.ioshl0).1 ≠ 0) = _
    rw [e0]
    exact flag_decide _
  · show decide ((outputFlag d.ioshl1).1 ≠ 0) = _
    rw [e1]
    exact flag_decide _
  · show decide ((outputFlag d.ioshl2).1 ≠ 0) = _
    rw [e2]
    exact flag_decide _
  · show decide ((outputFlag d.ioshl3).1 ≠ 0) = _
    rw [e3]
    exact flag_decide _
  · show decide ((outputFlag d.ioshl0).2 ≠ 0) = _
    rw [e0]
    exact flag_decide _
  · show decide ((outputFlag d.ioshl1).2 ≠ 0) = _
    rw [e1]
    exact flag_decide _
  · show ((deletion d.maxint).2 % 256).toNat = _
    rw [hmax]
    have := hv.points.1
    omega
  · show strainFlag d.raw (deletion d.maxint).2 ((outputFlag d.ioshl0).1, (outputFlag d.ioshl1).1, (outputFlag d.ioshl2).1,
      (outputFlag d.ioshl3).1) = _
    rw [hmax, e0, e1, e2, e3]
    unfold strainFlag
    have hp := hv.points.1
    have hu : toU64 (v.points : Int) = v.points := by
      rw [toU64_nonneg (by omega) (by rw [Int.toNat_natCast]; unfold u64; omega), Int.toNat_natCast]
    have f0 := flag_le v.shellStress
    have f1 := flag_le v.shellPlastic
    have f2 := flag_le v.forces
    have f3 := flag_le v.thickness
    have hn := ok.neips
    have hprod : v.points * (6 * flagWord v.shellStress + flagWord v.shellPlastic + d.neips) ≤ 255 * 262 :=
      Nat.mul_le_mul hp (by omega)
    have g0 : d.raw.idtdt = d.idtdt := rfl
    have g1 : d.raw.nv2d = d.nv2d := rfl
    have g2 : d.raw.nelt = d.thicks.length := rfl
    have g3 : d.raw.nv3dt = d.nv3dt := rfl
    have g4 : d.raw.neips = d.neips := rfl
    rw [g0, g1, g2, g3, g4, hu]
    simp only
    have hst := hv.strain
    generalize v.points * (6 * flagWord v.shellStress + flagWord v.shellPlastic + d.neips) = m at *
    rcases hst with ⟨h1, h2⟩ | ⟨h1, h2, h3⟩ | ⟨h1, h2, h3, h4⟩
    · rw [if_neg (by omega), digit_eq 0]
      exact congrArg some h2
    · rw [if_pos h1, if_pos h2, h3, Nat.mod_eq_of_lt (a := m + 8 * flagWord v.forces + 4 * flagWord v.thickness) (by unfold u64; omega),
        Nat.mod_eq_of_lt (by unfold u64; omega)]
      congr 1
      cases v.strain
      · rw [if_neg (by unfold flagWord; simp)]
        rfl
      · rw [if_pos (by show _ > _; unfold flagWord; simp)]
        rfl
    · have : 0 < d.thicks.length := List.length_pos_iff.mpr h3
      rw [if_pos h1, if_neg (by omega), if_pos this, h4, sub64_add _ _ (by
        have := flag_le v.strain
        unfold u64
        omega)]
      congr 1
      cases v.strain
      · rw [if_neg (by unfold flagWord; simp)]
        rfl
      · rw [if_pos (by unfold flagWord; simp)]
        rfl

/-! ## Elements -/

theorem surface_seen {v : Layout} {c : Cda} {d : Db} (hf : LayoutFits v c d) {x : PointVal} (hx : x.Ok d) {data : List Nat} {o : Nat}
    {rest : List Nat} (h : data.drop o = x.words v ++ rest) :
    surfaceAt c data o = x.seen v ∧ data.drop (o + surfaceWords c) = rest := by
  unfold PointVal.words at h
  rw [List.append_assoc, List.append_assoc] at h
  have h1 := drop_at h (only_length hx.stress)
  have h2 := drop_at h1 (only_length (b := v.shellPlastic) (l := [x.plastic]) (n := 1) rfl)
  unfold surfaceAt surfaceWords PointVal.seen
  rw [hf.s0, hf.s1, hf.neips]
  refine ⟨?_, ?_⟩
  · rw [sliceIf_only h hx.stress, sliceIf_only (n := 1) h1 rfl, ← hx.history, slice_at h2]
  · rw [← Nat.add_assoc, ← Nat.add_assoc]
    exact drop_at h2 hx.history

/-- Auxiliary: the integration points one after the other. -/
def putAll : Nat → List Surface → Shell → Shell
  | _, [], s => s
  | j, x :: xs, s => putAll (j + 1) xs (s.put j x)

theorem putAll_add : ∀ (l : List Surface) (j : Nat) (s : Shell), 3 ≤ j → putAll j l s = { s with add := s.add ++ l }
  | [], j, s, _ => by simp [putAll]
  | x :: xs, j + 3, s, _ => by
    rw [putAll, putAll_add xs _ _ (by omega)]
    show Shell.mk _ _ _ ((s.add ++ [x]) ++ xs) _ _ _ = _
    rw [List.append_assoc]
    rfl

theorem fill_seen {v : Layout} {c : Cda} {d : Db} (hf : LayoutFits v c d) {data : List Nat} : ∀ (l : List PointVal) (o j : Nat) (s : Shell)
    (rest : List Nat), (∀ p ∈ l, p.Ok d) → data.drop o = l.flatMap (PointVal.words v) ++ rest →
    fill c data o l.length j s = putAll j (l.map (PointVal.seen v)) s ∧ data.drop (o + l.length * surfaceWords c) = rest
  | [], o, j, s, rest, _, h => by
    refine ⟨rfl, ?_⟩
    simpa using h
  | x :: xs, o, j, s, rest, hl, h => by
    rw [List.flatMap_cons, List.append_assoc] at h
    obtain ⟨h1, h2⟩ := surface_seen hf (hl x (by simp)) h
    obtain ⟨h3, h4⟩ := fill_seen hf xs (o + surfaceWords c) (j + 1) (s.put j (surfaceAt c data o)) rest (fun p hp => hl p (by simp [hp])) h2
    refine ⟨?_, ?_⟩
    · rw [List.length_cons, fill, h3, h1]
      rfl
    · rw [← h4, List.length_cons, Nat.succ_mul]
      congr 1
      omega

theorem pointWords_length {v : Layout} {c : Cda} {d : Db} (hf : LayoutFits v c d) {l : List PointVal} (h : ∀ p ∈ l, p.Ok d) :
    (l.flatMap (PointVal.words v)).length = l.length * surfaceWords c := by
  induction l with
  | nil => simp
  | cons x xs ih =>
    rw [List.flatMap_cons, List.length_append, ih fun p hp => h p (by simp [hp]), List.length_cons, Nat.succ_mul, Nat.add_comm]
    congr 1
    have hx := h x (by simp)
    unfold PointVal.words surfaceWords
    rw [hf.s0, hf.s1, hf.neips, List.length_append, List.length_append, only_length hx.stress,
      only_length (l := [x.plastic]) (n := 1) rfl, hx.history]
    omega

theorem three_points {α : Type} {l : List α} (h : 3 ≤ l.length) : ∃ a b c r, l = a :: b :: c :: r := by
  match l, h with
  | a :: b :: c :: r, _ => exact ⟨a, b, c, r, rfl⟩

theorem shell_seen {v : Layout} {c : Cda} {d : Db} (hf : LayoutFits v c d) (hp : v.points ≤ 255) {x : ShellVal} (hx : x.Ok v d)
    {data : List Nat} {o : Nat} {rest : List Nat} (h : data.drop o = x.words v ++ rest) :
    shellAt c (flagWord v.strain) data o = x.seen v := by
  unfold ShellVal.words at h
  rw [List.append_assoc, List.append_assoc, List.append_assoc] at h
  obtain ⟨h1, h2⟩ := fill_seen hf x.points o 0 {} _ hx.points.2 h
  have hn := hx.points.1
  have h3 := drop_at h2 (only_length hx.forces)
  have h4 := drop_at h3 (only_length hx.thickness)
  have h5 := hx.three
  rw [hn] at h1 h2 h3 h4
  unfold shellAt
  simp only
  rw [hf.points, h1, hf.s2, hf.s3, sliceIf_only h2 hx.forces, sliceIf_only h3 hx.thickness]
  have hi : (flagWord v.strain = 0 ∨ flagWord v.strain = 1) := by have := flag_le v.strain; omega
  have hdec : decide (flagWord v.strain = 1) = v.strain := by cases v.strain <;> rfl
  rw [if_pos hi, hdec, sliceIf_only h4 hx.strain]
  obtain ⟨a, b, e, r, he⟩ := three_points (show 3 ≤ (x.points.map (PointVal.seen v)).length by rw [List.length_map]; omega)
  unfold ShellVal.seen
  rw [he]
  have hput : putAll 0 (a :: b :: e :: r) {} = putAll 3 r (({ mid := some a, inner := some b, outer := some e } : Shell)) := rfl
  rw [hput, putAll_add _ _ _ (Nat.le_refl _), hn]
  have : (v.points + 253) % 256 = v.points - 3 := by omega
  rw [this]
  rfl

theorem fillThick_ge (c : Cda) (istrn : Nat) (data : List Nat) : ∀ (left o j : Nat) (s : Shell), 3 ≤ j →
    fillThick c istrn data o left j s = fill c data o left j s
  | 0, _, _, _, _ => rfl
  | left + 1, o, j, s, h => by
    rw [fillThick, fill]
    rw [if_neg (by omega), fillThick_ge c istrn data left _ _ _ (by omega)]

theorem fillThick_three (c : Cda) (istrn : Nat) (data : List Nat) (o n : Nat) (s : Shell) :
    fillThick c istrn data o (n + 1 + 1 + 1) 0 s =
      fillThick c istrn data (o + surfaceWords c + surfaceWords c + surfaceWords c + wordsIf (istrn = 1) 12) n 3
        { ((s.put 0 (surfaceAt c data o)).put 1 (surfaceAt c data (o + surfaceWords c))).put 2
            (surfaceAt c data (o + surfaceWords c + surfaceWords c)) with
          strains := some (sliceIf (istrn = 1) data (o + surfaceWords c + surfaceWords c + surfaceWords c) 12) } := by
  rw [fillThick, if_neg (by decide), fillThick, if_neg (by decide), fillThick, if_pos rfl]

theorem thick_seen {v : Layout} {c : Cda} {d : Db} (hf : LayoutFits v c d) (hp : v.points ≤ 255) {x : ShellVal} (hx : x.ThickOk v d)
    {data : List Nat} {o : Nat} {rest : List Nat} (h : data.drop o = x.thickWords v ++ rest) :
    thickAt c (flagWord v.strain) data o = x.thickSeen v := by
  have hn := hx.points.1
  have h3 := hx.three
  obtain ⟨a, b, e, r, he⟩ := three_points (show 3 ≤ x.points.length by omega)
  have hall := hx.points.2
  unfold ShellVal.thickWords at h
  unfold ShellVal.thickSeen ShellVal.seen
  rw [he] at h hall hn ⊢
  simp only [List.take_succ_cons, List.take_zero, List.drop_succ_cons, List.drop_zero, List.flatMap_cons, List.flatMap_nil, List.append_nil,
    List.append_assoc] at h
  obtain ⟨k1, k2⟩ := surface_seen hf (hall a (by simp)) h
  obtain ⟨l1, l2⟩ := surface_seen hf (hall b (by simp)) k2
  obtain ⟨m1, m2⟩ := surface_seen hf (hall e (by simp)) l2
  have hdec : decide (flagWord v.strain = 1) = v.strain := by cases v.strain <;> rfl
  have n1 := sliceIf_only m2 hx.strain
  have n2 := drop_at m2 (only_length hx.strain)
  obtain ⟨p1, -⟩ := fill_seen hf r _ 3 (Shell.mk (some (a.seen v)) (some (b.seen v)) (some (e.seen v)) []
    [] (some (orZeros v.strain 12 x.strain)) 0) _ (fun p hp => hall p (by simp [hp])) n2
  have hl : v.points = r.length + 1 + 1 + 1 := by rw [← hn]; rfl
  unfold thickAt
  rw [hf.points, hl, fillThick_three, fillThick_ge _ _ _ _ _ _ _ (by decide), k1, l1, m1, hdec, n1]
  have : (r.length + 1 + 1 + 1 + 253) % 256 = r.length := by omega
  rw [this]
  refine (congrArg (fun z : Shell => { z with numAdditional := r.length }) (p1.trans (putAll_add _ _ _ (Nat.le_refl _)))).trans ?_
  simp

theorem solid_seen {v : Layout} {c : Cda} {d : Db} (hf : LayoutFits v c d) {x : SolidVal} (hx : x.Ok v d) {data : List Nat} {o : Nat}
    {rest : List Nat} (h : data.drop o = x.words v ++ rest) : solidAt c (flagWord v.strain) data o = x.seen v := by
  unfold SolidVal.words at h
  rw [List.append_assoc, List.append_assoc, List.append_assoc] at h
  have h1 := drop_at h (only_length hx.stress)
  have h2 := drop_at h1 (only_length (b := v.solidPlastic) (l := [x.plastic]) (n := 1) rfl)
  have h3 := drop_at h2 rfl
  unfold solidAt solidWords SolidVal.seen
  rw [hf.o0, hf.o1, hf.neiph, sliceIf_only h hx.stress, sliceIf_only (n := 1) h1 rfl]
  congr 1
  have hh := hx.history
  cases hs : v.strain
  · unfold sliceIf
    rw [if_neg (by simp [flagWord])]
    rfl
  · rw [hs] at hh h3
    have h6 : 6 ≤ d.neiph := by
      have : flagWord true = 1 := rfl
      omega
    unfold sliceIf
    rw [if_pos (by simp [flagWord, h6])]
    have : o + (wordsIf v.solidStress 6 + wordsIf v.solidPlastic 1 + d.neiph) - 6 =
        o + wordsIf v.solidStress 6 + wordsIf v.solidPlastic 1 + x.history.length := by
      have : flagWord true = 1 := rfl
      omega
    rw [this]
    have := slice_at (a := x.strain) h3
    rw [hx.strain] at this
    exact this

theorem beam_seen {v : Layout} {c : Cda} (hb : c.beamip = v.beamPoints) (h0 : c.ext.neipb = 0) {x : BeamVal} (hx : x.Ok v)
    {data : List Nat} {o : Nat} {rest : List Nat} (h : data.drop o = x.words ++ rest) : beamAt c data o = x.seen := by
  unfold BeamVal.words at h
  rw [List.append_assoc] at h
  have h1 := drop_at h hx.resultants
  have hz : ∀ k, slice data k 0 = [] := fun k => List.take_zero
  unfold beamAt BeamVal.seen
  simp only [h0, hz]
  congr 1
  · rw [← hx.resultants]
    exact slice_at h
  · rw [hb, ← hx.points.1]
    apply List.ext_getElem
    · simp
    · intro i a1 a2
      have hi : i < x.points.length := by simpa using a2
      simp only [List.getElem_map, List.getElem_range]
      unfold beamPointAt
      rw [h0, hz]
      congr 1
      obtain ⟨r, e⟩ := drop_flatten hx.points.2 (List.getElem?_eq_getElem hi)
      have hlen := flatten_length hx.points.2
      have e2 : data.drop (o + 6 + 5 * i) = x.points[i] ++ (r ++ rest) := by
        rw [← List.drop_drop, h1, List.drop_append_of_le_length (by omega), Nat.mul_comm, e, List.append_assoc]
      have := slice_at e2
      rw [hx.points.2 _ (List.getElem_mem hi)] at this
      exact this

/-! ## C105 -/

/-- Auxiliary: the values of all elements of a kind. -/
theorem decode_list {α β : Type} {f : Nat → Cur α} {k n nv : Nat} {v : Nat → List Nat → Nat → α}
    (h : ∀ e, e < n → Exact (f e) k (v e)) {xs : List β} {w : β → List Nat} {seen : β → α} (hn : xs.length = n)
    (hl : ∀ e ∈ xs.map w, e.length = nv) (hk : xs ≠ [] → k = nv) (hs : n * nv < u64)
    (hseen : ∀ e x data o rest, x ∈ xs → data.drop o = w x ++ rest → v e data o = seen x) :
    decodeAll f n nv (xs.map w).flatten = .ok (some (xs.map seen)) := by
  have hlen : (xs.map w).flatten.length = n * nv := by
    rw [flatten_length hl, List.length_map, hn, Nat.mul_comm]
  rw [decodeAll_exact h hlen hs]
  by_cases h0 : xs = []
  · subst h0
    subst hn
    rfl
  · have hk := hk h0
    subst hk
    rw [if_pos (.inr rfl)]
    congr 2
    subst hn
    apply List.ext_getElem
    · simp
    · intro i h1 h2
      have hi : i < xs.length := by simpa using h2
      simp only [List.getElem_map, List.getElem_range]
      obtain ⟨rest, e⟩ := drop_flatten hl (k := i) (w := w xs[i]) (by rw [List.getElem?_map, List.getElem?_eq_getElem hi]; rfl)
      exact hseen _ _ _ _ rest (List.getElem_mem hi) e

/-- Auxiliary: a section of a state. -/
theorem db_stateSection {d : Db} (ok : d.Ok) {j r : Nat} {f : List Step} {s : Step} (hj : d.files[j]? = some f) (hr : f[r]? = some s)
    {a b c : List Nat} {off n : Nat} (h : s.words = a ++ (b ++ c)) (h1 : a.length = off) (h2 : b.length = n) :
    fileWords d.ws (packWords d.ws (stepsWords d.ws f)) (r * stateLen d.cda + off) n = b ∧ n < u64 := by
  have hsteps := ok.steps f (List.mem_of_getElem? hj)
  subst h1 h2
  refine ⟨?_, ?_⟩
  · rw [file_slice ok.ws hsteps hr (by rw [h]; simp), slice_mid h]
  · have hlt : r < f.length := (List.getElem?_eq_some_iff.mp hr).1
    have h3 : s.words.length = stateLen d.cda := step_length (hsteps s (List.mem_of_getElem? hr))
    have h4 : b.length ≤ s.words.length := by rw [h]; simp; omega
    have h5 := stepsWords_length hsteps
    have h6 : 1 * stateLen d.cda ≤ f.length * stateLen d.cda := Nat.mul_le_mul_right _ (by omega)
    have h7 : (stepsWords d.ws f).length ≤ (packWords d.ws (stepsWords d.ws f)).length := by
      rw [pack_length]
      have : 1 ≤ d.ws := by have := ok.ws; omega
      exact Nat.le_mul_of_pos_right _ this
    have h8 : (packWords d.ws (stepsWords d.ws f)).length ≤ d.write.flatten.length := by
      apply List.Sublist.length_le
      apply List.sublist_flatten_of_mem
      unfold Db.write
      rw [List.map_cons, List.map_map]
      refine List.mem_cons_of_mem _ (List.mem_map.mpr ⟨f, List.mem_of_getElem? hj, rfl⟩)
    have := ok.size
    unfold u64
    omega

/-- Auxiliary: where the values are in a state. -/
theorem db_offsets {d : Db} {s : Step} (so : StepOk d s) :
    offSolid d.cda = 1 + s.globals.length + s.coords.length + s.velocity.length + s.acceleration.length ∧
    offBeam d.cda = offSolid d.cda + s.solids.flatten.length ∧
    offShell d.cda = offBeam d.cda + s.beams.flatten.length ∧
    offThick d.cda = offShell d.cda + s.shells.flatten.length := by
  have e2 : d.cda.raw.nel8 = (d.solids.length : Int) := rfl
  have hf : ∀ b : Bool, (if flagWord b = 0 then 0 else 3 * d.nodes.length) = if b then 3 * d.nodes.length else 0 := by
    intro b
    cases b <;> simp [flagWord]
  have n1 : nodeLen d.cda d.cda.raw.iu = s.coords.length := by rw [so.coords]; exact hf _
  have n2 : nodeLen d.cda d.cda.raw.iv = s.velocity.length := by rw [so.velocity]; exact hf _
  have n3 : nodeLen d.cda d.cda.raw.ia = s.acceleration.length := by rw [so.acceleration]; exact hf _
  have l4 : offSolid d.cda = 1 + d.nglbv + nodeLen d.cda d.cda.raw.iu + nodeLen d.cda d.cda.raw.iv + nodeLen d.cda d.cda.raw.ia +
      0 * d.cda.raw.nel8.toNat := rfl
  have l5 : offBeam d.cda = offSolid d.cda + d.nv3d * d.cda.raw.nel8.toNat := rfl
  have l6 : offShell d.cda = offBeam d.cda + d.nv1d * d.beams.length := rfl
  have l7 : offThick d.cda = offShell d.cda + d.nv2d * d.shells.length := rfl
  rw [e2, Int.toNat_natCast] at l5
  refine ⟨?_, ?_, ?_, ?_⟩
  · rw [l4, n1, n2, n3, so.globals]
    omega
  · rw [l5, flatten_length so.solids.2, so.solids.1]
  · rw [l6, flatten_length so.beams.2, so.beams.1]
  · rw [l7, flatten_length so.shells.2, so.shells.1]

/-- C105 for the values of the elements: if what is written for each element is what the control words announce then the library gives back
these values for every element of every state; what is not in the file is zero. -/
theorem c105_values {d : Db} (ok : d.Ok) {v : Layout} (hv : v.Ok d) : ∃ plot, openPlot d.write = .ok plot ∧
    ∀ (j r : Nat) (f : List Step) (s : Step), d.files[j]? = some f → f[r]? = some s →
      let i := ((d.files.map List.length).take j).sum + r
      (∀ xs : List SolidVal, s.solids = xs.map (SolidVal.words v) → (∀ x ∈ xs, x.Ok v d) →
        readSolidsState plot i = .ok (plot, some (xs.map (SolidVal.seen v)))) ∧
      (∀ xs : List BeamVal, s.beams = xs.map BeamVal.words → (∀ x ∈ xs, x.Ok v) →
        readBeamsState plot i = .ok (plot, some (xs.map BeamVal.seen))) ∧
      (∀ xs : List ShellVal, s.shells = xs.map (ShellVal.words v) → (∀ x ∈ xs, x.Ok v d) →
        readShellsState plot i = .ok (plot, some (xs.map (ShellVal.seen v)))) ∧
      (∀ xs : List ShellVal, s.thicks = xs.map (ShellVal.thickWords v) → (∀ x ∈ xs, x.ThickOk v d) →
        readThickState plot i = .ok (plot, some (xs.map (ShellVal.thickSeen v)))) := by
  obtain ⟨plot, ho, hc, hlen, hst⟩ := c32_states (db_family ok)
  have hfit := fits ok hv
  have hfiles := (db_family ok).files
  rw [← hfiles] at ho
  refine ⟨plot, ho, ?_⟩
  intro j r f s hj hr
  have hfile : (d.files.map fun f => packWords d.ws (stepsWords d.ws f))[j]? = some (packWords d.ws (stepsWords d.ws f)) := by
    rw [List.getElem?_map, hj]
    rfl
  have hn : (d.files.map List.length)[j]? = some f.length := by
    rw [List.getElem?_map, hj]
    rfl
  obtain ⟨-, -, -, -, t5, t6, t7, t8⟩ := hst j f.length r _ hfile hn (List.getElem?_eq_some_iff.mp hr).1
  have so := ok.steps f (List.mem_of_getElem? hj) s (List.mem_of_getElem? hr)
  obtain ⟨q1, q2, q3, q4⟩ := db_offsets so
  have sec := fun (a b c : List Nat) (off n : Nat) h h1 h2 => @db_stateSection d ok j r f s hj hr a b c off n h h1 h2
  have e2 : d.cda.raw.nel8 = (d.solids.length : Int) := rfl
  have e8 : d.cda.raw.nel8.toNat = d.solids.length := by rw [e2, Int.toNat_natCast]
  refine ⟨?_, ?_, ?_, ?_⟩
  · intro xs hx hok
    have hl : xs.length = d.solids.length := by rw [← so.solids.1, hx, List.length_map]
    by_cases h0 : xs = []
    · subst h0
      unfold readSolidsState
      rw [hc, e2, ← hl]
      rfl
    · have hpos : 0 < xs.length := List.length_pos_iff.mpr h0
      have hnv : d.nv3d = solidWords d.cda := by
        obtain ⟨x, hxm⟩ := List.exists_mem_of_ne_nil xs h0
        have h1 := so.solids.2 (x.words v) (by rw [hx]; exact List.mem_map_of_mem hxm)
        have h2 := (hok x hxm).history
        rw [← h1]
        unfold solidWords SolidVal.words
        rw [hfit.o0, hfit.o1, hfit.neiph, List.length_append, List.length_append, List.length_append, only_length (hok x hxm).stress,
          only_length (l := [x.plastic]) (n := 1) rfl, only_length (hok x hxm).strain, ← h2]
        cases v.strain <;> simp [wordsIf, flagWord] <;> omega
      rw [t5 (by rw [e2]; omega)]
      obtain ⟨h1, h2⟩ := sec (s.time :: (s.globals ++ (s.coords ++ (s.velocity ++ s.acceleration)))) s.solids.flatten
        (s.beams.flatten ++ (s.shells.flatten ++ (s.thicks.flatten ++ s.deleted))) (offSolid d.cda) (d.solids.length * d.nv3d)
        (by unfold Step.words; simp only [List.cons_append, List.append_assoc])
        (by rw [q1]; simp only [List.length_cons, List.length_append]; omega)
        (by rw [flatten_length so.solids.2, so.solids.1, Nat.mul_comm])
      simp only
      rw [e8]
      show (withStrain d.cda fun istrn => decodeAll (fun _ => solid d.cda istrn) d.solids.length d.nv3d
        (fileWords d.ws (packWords d.ws (stepsWords d.ws f)) (r * stateLen d.cda + offSolid d.cda) (d.solids.length * d.nv3d))).bind _ = _
      rw [h1, hx]
      have hd : withStrain d.cda (fun istrn => decodeAll (fun _ => solid d.cda istrn) d.solids.length d.nv3d
          (xs.map (SolidVal.words v)).flatten) = .ok (some (xs.map (SolidVal.seen v))) := by
        unfold withStrain
        rw [hfit.strain]
        show decodeAll (fun _ => solid d.cda (flagWord v.strain)) d.solids.length d.nv3d _ = _
        have hall : ∀ e ∈ xs.map (SolidVal.words v), e.length = d.nv3d := by
          intro e he
          rw [← hx] at he
          exact so.solids.2 e he
        have hlen : (xs.map (SolidVal.words v)).flatten.length = d.solids.length * d.nv3d := by
          rw [flatten_length hall, List.length_map, hl, Nat.mul_comm]
        unfold decodeAll
        rw [times_solid d.cda _ (by rw [hlen]; exact h2) _ 0 0 (by rw [hlen, hnv]; omega)]
        simp only [Nat.zero_add]
        rw [← hnv, if_pos rfl]
        congr 2
        apply List.ext_getElem
        · simp [hl]
        · intro i g1 g2
          have hi : i < xs.length := by simpa using g2
          simp only [List.getElem_map, List.getElem_range]
          obtain ⟨rest, e⟩ := drop_flatten hall (k := i) (w := xs[i].words v)
            (by rw [List.getElem?_map, List.getElem?_eq_getElem hi]; rfl)
          exact solid_seen hfit (hok _ (List.getElem_mem hi)) e
      rw [hd]
      rfl
  · intro xs hx hok
    have hl : xs.length = d.beams.length := by rw [← so.beams.1, hx, List.length_map]
    by_cases h0 : xs = []
    · subst h0
      unfold readBeamsState
      rw [hc, show d.cda.raw.nel2 = d.beams.length from rfl, ← hl]
      rfl
    · have hpos : 0 < xs.length := List.length_pos_iff.mpr h0
      obtain ⟨x, hxm⟩ := List.exists_mem_of_ne_nil xs h0
      have hfew := (hok x hxm).few
      have hnv : d.nv1d = 6 + 5 * v.beamPoints := by
        have h1 := so.beams.2 x.words (by rw [hx]; exact List.mem_map_of_mem hxm)
        rw [← h1]
        unfold BeamVal.words
        rw [List.length_append, (hok x hxm).resultants, flatten_length (hok x hxm).points.2, (hok x hxm).points.1]
      have hbi : d.cda.beamip = v.beamPoints := by
        show sub64 (sub64 d.nv1d 6) 0 / 5 = _
        rw [hnv]
        unfold sub64 u64
        omega
      have hneipb : d.cda.ext.neipb = 0 := rfl
      rw [t6 (by show d.beams.length ≠ 0; omega) (by rw [hneipb]; decide) (by rw [hbi]; exact hfew)]
      obtain ⟨h1, h2⟩ := sec (s.time :: (s.globals ++ (s.coords ++ (s.velocity ++ (s.acceleration ++ s.solids.flatten)))))
        s.beams.flatten (s.shells.flatten ++ (s.thicks.flatten ++ s.deleted)) (offBeam d.cda) (d.beams.length * d.nv1d)
        (by unfold Step.words; simp only [List.cons_append, List.append_assoc])
        (by rw [q2, q1]; simp only [List.length_cons, List.length_append]; omega)
        (by rw [flatten_length so.beams.2, so.beams.1, Nat.mul_comm])
      show (decodeAll (fun _ => beam d.cda) d.beams.length d.nv1d
        (fileWords d.ws (packWords d.ws (stepsWords d.ws f)) (r * stateLen d.cda + offBeam d.cda) (d.beams.length * d.nv1d))).bind _ = _
      rw [h1, hx, decode_list (fun e _ => exact_beam d.cda) hl (by rw [← hx]; exact so.beams.2)
        (fun _ => by rw [hnv]; unfold beamWords; rw [hbi, hneipb]; omega) h2
        (fun e x data o rest hx h => beam_seen hbi hneipb (hok x hx) h)]
      rfl
  · intro xs hx hok
    have hl : xs.length = d.shells.length := by rw [← so.shells.1, hx, List.length_map]
    by_cases h0 : xs = []
    · subst h0
      unfold readShellsState
      rw [hc, show d.cda.raw.nel4 = d.shells.length from rfl, ← hl]
      rfl
    · have hpos : 0 < xs.length := List.length_pos_iff.mpr h0
      obtain ⟨x, hxm⟩ := List.exists_mem_of_ne_nil xs h0
      have hk : shellWords d.cda (flagWord v.strain) = d.nv2d := by
        have h1 := so.shells.2 (x.words v) (by rw [hx]; exact List.mem_map_of_mem hxm)
        have xo := hok x hxm
        rw [← h1]
        unfold shellWords ShellVal.words
        have hw := pointWords_length hfit xo.points.2
        rw [hfit.points, hfit.s2, hfit.s3, List.length_append, List.length_append, List.length_append, only_length xo.forces,
          only_length xo.thickness, only_length xo.strain, hw, xo.points.1]
        have hdec : decide (flagWord v.strain = 1) = v.strain := by cases v.strain <;> rfl
        rw [hdec]
        omega
      rw [t7 (by show d.shells.length ≠ 0; omega)]
      obtain ⟨h1, h2⟩ := sec (s.time :: (s.globals ++ (s.coords ++ (s.velocity ++ (s.acceleration ++ (s.solids.flatten ++
        s.beams.flatten)))))) s.shells.flatten (s.thicks.flatten ++ s.deleted) (offShell d.cda) (d.shells.length * d.nv2d)
        (by unfold Step.words; simp only [List.cons_append, List.append_assoc])
        (by rw [q3, q2, q1]; simp only [List.length_cons, List.length_append]; omega)
        (by rw [flatten_length so.shells.2, so.shells.1, Nat.mul_comm])
      unfold withStrain
      rw [hfit.strain]
      show (decodeAll (shell d.cda (flagWord v.strain) (d.cda.raw.neips * points d.cda * d.shells.length)) d.shells.length d.nv2d
        (fileWords d.ws (packWords d.ws (stepsWords d.ws f)) (r * stateLen d.cda + offShell d.cda) (d.shells.length * d.nv2d))).bind _ = _
      rw [h1, hx, decode_list (fun e he => exact_shell d.cda _ he rfl) hl (by rw [← hx]; exact so.shells.2) (fun _ => hk) h2
        (fun e x data o rest hx h => shell_seen hfit hv.points.1 (hok x hx) h)]
      rfl
  · intro xs hx hok
    have hl : xs.length = d.thicks.length := by rw [← so.thicks.1, hx, List.length_map]
    by_cases h0 : xs = []
    · subst h0
      unfold readThickState
      rw [hc, show d.cda.raw.nelt = d.thicks.length from rfl, ← hl]
      rfl
    · have hpos : 0 < xs.length := List.length_pos_iff.mpr h0
      obtain ⟨x, hxm⟩ := List.exists_mem_of_ne_nil xs h0
      have xo := hok x hxm
      have hk : thickWords d.cda (flagWord v.strain) = d.nv3dt := by
        have h1 := so.thicks.2 (x.thickWords v) (by rw [hx]; exact List.mem_map_of_mem hxm)
        rw [← h1]
        unfold thickWords ShellVal.thickWords
        have hw1 := pointWords_length hfit (l := x.points.take 3) fun p hp => xo.points.2 p (List.mem_of_mem_take hp)
        have hw2 := pointWords_length hfit (l := x.points.drop 3) fun p hp => xo.points.2 p (List.mem_of_mem_drop hp)
        rw [hfit.points, List.length_append, List.length_append, only_length xo.strain, hw1, hw2, List.length_take, List.length_drop,
          xo.points.1, Nat.min_eq_left xo.three]
        have hdec : decide (flagWord v.strain = 1 ∧ 3 ≤ v.points) = v.strain := by
          have := xo.three
          cases v.strain <;> simp [flagWord, this]
        rw [hdec]
        have : v.points * surfaceWords d.cda = 3 * surfaceWords d.cda + (v.points - 3) * surfaceWords d.cda := by
          rw [← Nat.add_mul]
          congr 1
          have := xo.three
          omega
        omega
      rw [t8 (by show d.thicks.length ≠ 0; omega)]
      obtain ⟨h1, h2⟩ := sec (s.time :: (s.globals ++ (s.coords ++ (s.velocity ++ (s.acceleration ++ (s.solids.flatten ++
        (s.beams.flatten ++ s.shells.flatten))))))) s.thicks.flatten s.deleted (offThick d.cda) (d.thicks.length * d.nv3dt)
        (by unfold Step.words; simp only [List.cons_append, List.append_assoc])
        (by rw [q4, q3, q2, q1]; simp only [List.length_cons, List.length_append]; omega)
        (by rw [flatten_length so.thicks.2, so.thicks.1, Nat.mul_comm])
      unfold withStrain
      rw [hfit.strain]
      show (decodeAll (thickShell d.cda (flagWord v.strain) (d.thicks.length * 3 * d.cda.raw.neips)) d.thicks.length d.nv3dt
        (fileWords d.ws (packWords d.ws (stepsWords d.ws f)) (r * stateLen d.cda + offThick d.cda) (d.thicks.length * d.nv3dt))).bind _ = _
      have hmem : d.cda.raw.neips = 0 ∨ points d.cda ≤ 3 := by
        rcases xo.memory with h | h
        · exact .inl h
        · refine .inr ?_
          rw [hfit.points]
          omega
      rw [h1, hx, decode_list (fun e he => exact_thick d.cda _ he rfl hmem) hl (by rw [← hx]; exact so.thicks.2) (fun _ => hk) h2
        (fun e x data o rest hx h => thick_seen hfit hv.points.1 (hok x hx) h)]
      rfl

/-! ## A sample -/

/-- Specification: a layout with everything but forces of shells; ISTRN has to be inferred. -/
def sampleLayout : Layout where
  shellStress := true
  shellPlastic := true
  forces := false
  thickness := true
  solidStress := true
  solidPlastic := true
  strain := true
  points := 3
  beamPoints := 1

/-- Specification: the values of a solid of the sample. -/
def sampleSolid (t : Nat) : SolidVal := ⟨[t, 2, 3, 4, 5, 6], 7, [8], [9, 10, 11, 12, 13, 14]⟩
/-- Specification: the values of an integration point of the sample. -/
def samplePoint (t : Nat) : PointVal := ⟨[t, 22, 23, 24, 25, 26], 27, [28, 29]⟩
/-- Specification: the values of a shell of the sample. -/
def sampleShell (t : Nat) : ShellVal :=
  ⟨[samplePoint t, samplePoint 1, samplePoint 2], [0, 0, 0, 0, 0, 0, 0, 0], [31, 32, 33, 34], [1, 2, 3, 4, 5, 6, 7, 8, 9, 10, 11, 12]⟩
/-- Specification: the values of a beam of the sample. -/
def sampleBeam (t : Nat) : BeamVal := ⟨[t, 42, 43, 44, 45, 46], [[47, 48, 49, 50, 51]]⟩

/-- Specification: a state of the sample. -/
def sampleStep (t : Nat) : Step where
  time := t
  globals := List.replicate 34 0
  coords := List.replicate 24 t
  velocity := []
  acceleration := List.replicate 24 (t + 1)
  solids := [(sampleSolid t).words sampleLayout, (sampleSolid 1).words sampleLayout]
  beams := [(sampleBeam t).words]
  shells := [(sampleShell t).words sampleLayout]
  thicks := [(sampleShell t).thickWords sampleLayout]
  deleted := List.replicate 5 1

/-- Specification: a database with elements of all kinds and three states in two files, with words of four bytes. -/
def sampleDb : Db where
  ws := 4
  title := [1, 2, 3, 4, 5, 6, 7, 8, 9, 10]
  runTime := 77
  other := fun _ => 5
  nodes := List.replicate 8 [1, 2, 3]
  solids := [[1, 2, 3, 4, 5, 6, 7, 8, 1], [8, 7, 6, 5, 4, 3, 2, 1, 1]]
  thicks := [[1, 2, 3, 4, 5, 6, 7, 8, 4]]
  beams := [[1, 2, 3, 0, 0, 2]]
  shells := [[1, 2, 3, 4, 3]]
  nodeIds := [11, 12, 13, 14, 15, 16, 17, 18]
  solidIds := [101, 102]
  beamIds := [103]
  shellIds := [104]
  thickIds := [105]
  partIds := [1, 2, 3, 4]
  partOther := List.replicate 8 0
  numrbs := 0
  hasCoords := true
  hasVelocity := false
  hasAcceleration := true
  nglbv := 34
  nv3d := 14
  nv1d := 11
  nv2d := 43
  nv3dt := 39
  nummat8 := 1
  nummat2 := 1
  nummat4 := 1
  nummatt := 1
  neiph := 7
  neips := 2
  maxint := -10003
  ioshl0 := 1000
  ioshl1 := 1000
  ioshl2 := 0
  ioshl3 := 1000
  idtdt := 0
  files := [[sampleStep 1], [sampleStep 2, sampleStep 3]]

theorem sampleStep_ok {t : Nat} (ht : t = 1 ∨ t = 2 ∨ t = 3) : StepOk sampleDb (sampleStep t) := by
  rcases ht with rfl | rfl | rfl <;> refine ⟨?_, ?_, ?_, ?_, ?_, ?_, ?_, ?_, ?_, ?_, ?_⟩ <;> decide +kernel

/-- The sample meets the hypotheses of the theorems, with values of elements of all kinds. -/
theorem c105_sample : sampleDb.Ok ∧ sampleLayout.Ok sampleDb ∧ sampleDb.files.map List.length = [1, 2] ∧
    (∀ t, (sampleStep t).solids = [sampleSolid t, sampleSolid 1].map (SolidVal.words sampleLayout) ∧
      (sampleSolid t).Ok sampleLayout sampleDb ∧ (sampleShell t).Ok sampleLayout sampleDb ∧
      (sampleBeam t).Ok sampleLayout) ∧
    (∃ x : ShellVal, x.ThickOk { sampleLayout with points := 4 } { sampleDb with neips := 0 }) ∧
    (∃ x : ShellVal, x.ThickOk sampleLayout sampleDb) := by
  refine ⟨?_, ?_, rfl, ?_, ?_, ?_⟩
  · refine ⟨.inl rfl, rfl, ?_, ?_, ?_, ?_, ?_, rfl, rfl, rfl, rfl, rfl, rfl, ?_, ?_, ?_, ?_, ?_, ?_, ?_, ?_, ?_, ?_⟩
    · decide +kernel
    · decide +kernel
    · decide +kernel
    · decide +kernel
    · decide +kernel
    · decide +kernel
    · decide +kernel
    · decide +kernel
    · decide +kernel
    · decide +kernel
    · decide +kernel
    · exact List.cons_ne_nil _ _
    · intro f hf s hs
      rcases List.mem_cons.mp hf with rfl | hf
      · rw [List.mem_singleton.mp hs]
        exact sampleStep_ok (.inl rfl)
      · rw [List.mem_singleton.mp hf] at hs
        rcases List.mem_cons.mp hs with rfl | hs
        · exact sampleStep_ok (.inr (.inl rfl))
        · rw [List.mem_singleton.mp hs]
          exact sampleStep_ok (.inr (.inr rfl))
    · decide +kernel
    · rw [← makesSense_iff]
      decide +kernel
  · refine ⟨⟨rfl, id⟩, ⟨rfl, id⟩, rfl, rfl, ⟨by decide, .inr (.inr rfl)⟩, .inr (.inl ⟨by decide, by decide, rfl⟩)⟩
  · intro t
    refine ⟨rfl, ⟨rfl, rfl, rfl⟩, ⟨⟨rfl, ?_⟩, by decide, rfl, rfl, rfl⟩, ⟨rfl, ⟨rfl, ?_⟩, by decide⟩⟩
    · intro p hp
      have : ∃ u, p = samplePoint u := by
        have hp' : p ∈ [samplePoint t, samplePoint 1, samplePoint 2] := hp
        simp only [List.mem_cons, List.not_mem_nil, or_false] at hp'
        rcases hp' with rfl | rfl | rfl <;> exact ⟨_, rfl⟩
      obtain ⟨u, rfl⟩ := this
      exact ⟨rfl, rfl⟩
    · intro p hp
      rw [List.mem_singleton.mp hp]
      rfl
  · refine ⟨⟨List.replicate 4 ⟨[1, 2, 3, 4, 5, 6], 7, []⟩, [], [], List.replicate 12 0⟩, ⟨rfl, ?_⟩, by decide, .inl rfl, rfl⟩
    intro p hp
    rw [List.eq_of_mem_replicate hp]
    exact ⟨rfl, rfl⟩
  · refine ⟨sampleShell 1, ⟨rfl, ?_⟩, by decide, .inr rfl, rfl⟩
    intro p hp
    have hp' : p ∈ [samplePoint 1, samplePoint 1, samplePoint 2] := hp
    simp only [List.mem_cons, List.not_mem_nil, or_false] at hp'
    rcases hp' with rfl | rfl | rfl <;> exact ⟨rfl, rfl⟩

end Dyna.D3
