import Verif.D3Mean
import Verif.Props.D3State
/-!
# C78: mean values over the integration points
-/

namespace Dyna.D3

open Dyna

/-- Specification: one value of a point: stress component 0-5, plastic strain 6, history variable `k - 7`. -/
def Surface.value (s : Surface) (k : Nat) : Option Nat :=
  if k < 6 then s.sigma[k]? else if k = 6 then s.plastic[0]? else s.history[k - 7]?

/-- Specification: one value of the mean, numbered in the same way. -/
def MeanSurface.value {α : Type} (m : MeanSurface α) (k : Nat) : Option α :=
  if k < 6 then m.stress[k]? else if k = 6 then m.plastic[0]? else m.history[k - 7]?

/-- Specification: a point has all values. -/
structure Surface.Complete (hist : Nat) (s : Surface) : Prop where
  sigma : s.sigma.length = 6
  plastic : s.plastic.length = 1
  history : s.history.length = hist

/-- Specification: numbers added one after the other, starting with 0, and divided by how many there are. -/
def Arith.mean {α : Type} (A : Arith α) (l : List Nat) : α := A.div ((l.map A.num).foldl A.add A.zero) l.length

theorem addValues_ok {α : Type} (A : Arith α) {n : Nat} {acc : List α} {vals : List Nat} (ha : acc.length = n) (hv : vals.length = n) :
    addValues A n acc vals = .ok (List.zipWith A.add acc (vals.map A.num)) := by
  unfold addValues
  rw [if_neg (by omega), List.take_of_length_le (by omega)]

/-- Auxiliary of the proofs: what has been added up so far. -/
structure Sums {α : Type} (A : Arith α) (hist : Nat) (done : List Surface) (m : MeanSurface α) : Prop where
  stress : m.stress.length = 6
  plastic : m.plastic.length = 1
  history : m.history.length = hist
  value : ∀ k < 7 + hist, ∃ vs, done.mapM (fun s : Surface => s.value k) = some vs ∧ m.value k = some ((vs.map A.num).foldl A.add A.zero)

theorem mapM_snoc {β γ : Type} (f : β → Option γ) (l : List β) (x : β) {ys : List γ} {y : γ} (h : l.mapM f = some ys) (hx : f x = some y) :
    (l ++ [x]).mapM f = some (ys ++ [y]) := by
  rw [List.mapM_append, h]
  simp [hx]

theorem addPoint_sums {α : Type} {A : Arith α} {hist : Nat} {done : List Surface} {m : MeanSurface α} (S : Sums A hist done m) {ip : Surface}
    (c : ip.Complete hist) : ∃ m', addPoint A hist m ip = .ok m' ∧ Sums A hist (done ++ [ip]) m' := by
  refine ⟨⟨List.zipWith A.add m.stress (ip.sigma.map A.num), List.zipWith A.add m.plastic (ip.plastic.map A.num),
    List.zipWith A.add m.history (ip.history.map A.num)⟩, ?_, ?_⟩
  · unfold addPoint
    rw [addValues_ok A S.stress c.sigma, addValues_ok A S.plastic c.plastic, addValues_ok A S.history c.history]
    rfl
  · refine ⟨by simp [S.stress, c.sigma], by simp [S.plastic, c.plastic], by simp [S.history, c.history], fun k hk => ?_⟩
    obtain ⟨vs, h1, h2⟩ := S.value k hk
    have key : ∀ (acc : List α) (vals : List Nat) (j : Nat) (a : α), acc[j]? = some a → j < vals.length →
        ∃ v, vals[j]? = some v ∧ (List.zipWith A.add acc (vals.map A.num))[j]? = some (A.add a (A.num v)) := by
      intro acc vals j a ha hj
      refine ⟨vals[j], List.getElem?_eq_getElem hj, ?_⟩
      simp [List.getElem?_zipWith, ha, List.getElem?_eq_getElem hj]
    have step : ∀ v, ip.value k = some v → (done ++ [ip]).mapM (fun s : Surface => s.value k) = some (vs ++ [v]) :=
      fun v hv => mapM_snoc _ _ _ h1 hv
    unfold MeanSurface.value at h2 ⊢
    unfold Surface.value at step ⊢
    by_cases k6 : k < 6
    · rw [if_pos k6] at h2 ⊢
      obtain ⟨v, hv, hz⟩ := key _ ip.sigma k _ h2 (by rw [c.sigma]; exact k6)
      refine ⟨vs ++ [v], step v (by rw [if_pos k6, hv]), ?_⟩
      rw [hz]
      simp
    · rw [if_neg k6] at h2 ⊢
      by_cases k7 : k = 6
      · rw [if_pos k7] at h2 ⊢
        obtain ⟨v, hv, hz⟩ := key _ ip.plastic 0 _ h2 (by rw [c.plastic]; omega)
        refine ⟨vs ++ [v], step v (by rw [if_neg k6, if_pos k7, hv]), ?_⟩
        rw [hz]
        simp
      · rw [if_neg k7] at h2 ⊢
        obtain ⟨v, hv, hz⟩ := key _ ip.history (k - 7) _ h2 (by rw [c.history]; omega)
        refine ⟨vs ++ [v], step v (by rw [if_neg k6, if_neg k7, hv]), ?_⟩
        rw [hz]
        simp

theorem addPoints_sums {α : Type} {A : Arith α} {hist : Nat} {sh : Shell} (todo : List Surface) : ∀ (i : Nat) (done : List Surface)
    (m : MeanSurface α), Sums A hist done m → (∀ s ∈ todo, s.Complete hist) → (∀ k < todo.length, sh.point (i + k) = todo[k]?) →
    ∃ m', addPoints A hist sh todo.length i m = .ok m' ∧ Sums A hist (done ++ todo) m' := by
  induction todo with
  | nil =>
    intro i done m S _ _
    exact ⟨m, rfl, by simpa using S⟩
  | cons ip todo ih =>
    intro i done m S hc hp
    obtain ⟨m1, e1, S1⟩ := addPoint_sums S (hc ip (by simp))
    have h0 := hp 0 (by simp)
    simp only [Nat.add_zero, List.getElem?_cons_zero] at h0
    obtain ⟨m2, e2, S2⟩ := ih (i + 1) (done ++ [ip]) m1 S1 (fun s hs => hc s (by simp [hs])) (fun k hk => by
      rw [show i + 1 + k = i + (k + 1) by omega, hp (k + 1) (by simp; omega)]
      rfl)
    refine ⟨m2, ?_, by simpa using S2⟩
    rw [List.length_cons, addPoints, h0]
    dsimp only
    rw [e1]
    exact e2

/-- **C78** for the elements: the mean of an element with three or more complete points has, for every component of the stress, the
plastic strain and every history variable, the mean over all points of exactly this value, and nothing else is read. -/
theorem c78_mean {α : Type} (A : Arith α) {hist : Nat} {sh : Shell} {a b d : Surface} (h0 : sh.mid = some a) (h1 : sh.inner = some b)
    (h2 : sh.outer = some d) (hn : sh.numAdditional = sh.add.length) (hc : ∀ s ∈ a :: b :: d :: sh.add, s.Complete hist) :
    ∃ m, shellMean A hist sh = .ok m ∧ m.stress.length = 6 ∧ m.plastic.length = 1 ∧ m.history.length = hist ∧
      ∀ k < 7 + hist, ∃ vs, (a :: b :: d :: sh.add).mapM (fun s : Surface => s.value k) = some vs ∧ m.value k = some (A.mean vs) := by
  have S0 : Sums A hist [] ⟨List.replicate 6 A.zero, [A.zero], List.replicate hist A.zero⟩ := by
    refine ⟨by simp, rfl, by simp, fun k hk => ⟨[], rfl, ?_⟩⟩
    unfold MeanSurface.value
    by_cases k6 : k < 6
    · rw [if_pos k6, List.getElem?_replicate, if_pos k6]
      rfl
    · rw [if_neg k6]
      by_cases k7 : k = 6
      · rw [if_pos k7]
        rfl
      · rw [if_neg k7]
        simp [show k - 7 < hist by omega]
  obtain ⟨m, e, S⟩ := addPoints_sums (sh := sh) (a :: b :: d :: sh.add) 0 [] _ S0 hc (fun k hk => by
    match k with
    | 0 => exact h0
    | 1 => exact h1
    | 2 => exact h2
    | k + 3 => rw [Nat.zero_add]; rfl)
  have hlen : 3 + sh.numAdditional = (a :: b :: d :: sh.add).length := by
    rw [hn]
    simp only [List.length_cons]
    omega
  refine ⟨⟨m.stress.map (A.div · (3 + sh.numAdditional)), m.plastic.map (A.div · (3 + sh.numAdditional)),
    m.history.map (A.div · (3 + sh.numAdditional))⟩, ?_, by simp [S.stress], by simp [S.plastic], by simp [S.history], fun k hk => ?_⟩
  · unfold shellMean
    dsimp only
    rw [hlen, e]
    rfl
  · obtain ⟨vs, hv, hm⟩ := S.value k hk
    simp only [List.nil_append] at hv
    refine ⟨vs, hv, ?_⟩
    have hl : ∀ (l : List Surface) (ys : List Nat), l.mapM (fun s : Surface => s.value k) = some ys → ys.length = l.length := by
      intro l
      induction l with
      | nil => intro ys h; simp at h; simp [h]
      | cons x xs ih =>
        intro ys h
        rw [List.mapM_cons] at h
        cases hx : x.value k with
        | none => simp [hx] at h
        | some y =>
          cases hxs : xs.mapM (fun s : Surface => s.value k) with
          | none => simp [hx, hxs] at h
          | some zs =>
            simp only [hx, hxs, Option.pure_def, Option.bind_eq_bind, Option.bind_some, Option.some.injEq] at h
            rw [← h]
            simp [ih zs hxs]
    unfold Arith.mean
    rw [hl _ vs hv, hlen]
    unfold MeanSurface.value at hm ⊢
    by_cases k6 : k < 6
    · rw [if_pos k6] at hm ⊢
      simp [hm]
    · rw [if_neg k6] at hm ⊢
      by_cases k7 : k = 6
      · rw [if_pos k7] at hm ⊢
        simp [hm]
      · rw [if_neg k7] at hm ⊢
        simp [hm]

/-- Auxiliary of the specification: exact arithmetic. -/
def exact (num : Nat → Rat) : Arith Rat := ⟨num, 0, (· + ·), fun x n => x / (n : Rat)⟩

/-- With exact arithmetic the specification is the arithmetic mean: the sum divided by the number. -/
theorem c78_exact_arithmetic (num : Nat → Rat) (l : List Nat) : (exact num).mean l = (l.map num).sum / (l.length : Rat) := by
  unfold Arith.mean exact
  dsimp only
  rw [List.sum_eq_foldl]

/-- Three or more points given by a function. -/
theorem mean_of_blocks {α : Type} (A : Arith α) {hist n : Nat} {sh : Shell} (block : Nat → Surface) (h3 : 3 ≤ n)
    (h0 : 0 < n → sh.mid = some (block 0)) (h1 : 1 < n → sh.inner = some (block 1)) (h2 : 2 < n → sh.outer = some (block 2))
    (ha : sh.add = (List.range (n - 3)).map fun k => block (k + 3)) (hn : 3 ≤ n → sh.numAdditional = sh.add.length)
    (hc : ∀ j < n, (block j).Complete hist) :
    ∃ m, shellMean A hist sh = .ok m ∧ m.stress.length = 6 ∧ m.plastic.length = 1 ∧ m.history.length = hist ∧
      ∀ k < 7 + hist, ∃ vs, (List.range n).mapM (fun j => (block j).value k) = some vs ∧ m.value k = some (A.mean vs) := by
  have hl : block 0 :: block 1 :: block 2 :: sh.add = (List.range n).map block := by
    obtain ⟨q, rfl⟩ : ∃ q, n = q + 1 + 1 + 1 := ⟨n - 3, by omega⟩
    rw [ha, List.range_succ_eq_map, List.range_succ_eq_map, List.range_succ_eq_map]
    simp [Function.comp_def]
  obtain ⟨m, e, l1, l2, l3, hm⟩ := c78_mean A (hist := hist) (h0 (by omega)) (h1 (by omega)) (h2 (by omega)) (hn h3) (by
    rw [hl]
    intro s hs
    obtain ⟨j, hj, rfl⟩ := List.mem_map.1 hs
    exact hc j (List.mem_range.1 hj))
  refine ⟨m, e, l1, l2, l3, fun k hk => ?_⟩
  obtain ⟨vs, hv, hmv⟩ := hm k hk
  rw [hl] at hv
  refine ⟨vs, ?_, hmv⟩
  rw [← hv]
  generalize List.range n = l
  induction l with
  | nil => rfl
  | cons x xs ih => rw [List.map_cons, List.mapM_cons, List.mapM_cons, ih]

theorem surfaceAt_complete (c : Cda) (data : List Nat) (o : Nat) (h : o + surfaceWords c ≤ data.length) :
    (surfaceAt c data o).Complete c.raw.neips := by
  unfold surfaceWords at h
  have slen : ∀ (flag : Bool) (o n : Nat), o + wordsIf flag n ≤ data.length → (sliceIf flag data o n).length = n := by
    intro flag o n hl
    unfold sliceIf wordsIf at *
    cases flag with
    | true =>
      simp only [if_true] at hl ⊢
      unfold slice
      simp
      omega
    | false => simp
  refine ⟨slen _ _ _ (by omega), slen _ _ _ (by omega), ?_⟩
  show (slice data _ _).length = _
  unfold slice
  rw [List.length_take, List.length_drop]
  omega

theorem block_inside {e n nv j pts w x : Nat} (he : e < n) (hj : j < pts) (hw : pts * w + x ≤ nv) : e * nv + j * w + x + w ≤ n * nv := by
  have h1 : (e + 1) * nv ≤ n * nv := Nat.mul_le_mul_right _ (by omega)
  have h2 : (j + 1) * w ≤ pts * w := Nat.mul_le_mul_right _ (by omega)
  rw [Nat.succ_mul] at h1 h2
  omega

/-- **C78** for shells of a file: in the mean of shell `e` every value is the mean of this value over the blocks of the integration points
that are stored for element `e`. -/
theorem c78_shells_of_file {α : Type} (A : Arith α) {p : Plot} (g : Good p.buf) {state s i : Nat} (hs : p.states[state]? = some s)
    (hi : p.cda.istrn = some i) (hn : p.cda.raw.nel4 ≠ 0)
    (hin : InFile p s p.ptrs.stShell p.cda.raw.nel4 p.cda.raw.nv2d)
    (hw : shellWords p.cda i = p.cda.raw.nv2d) (h3 : 3 ≤ points p.cda) :
    ∃ l, readShellsState p state = .ok (p, some l) ∧ l.length = p.cda.raw.nel4 ∧
    ∀ (e : Nat) (sh : Shell), l[e]? = some sh →
      let data := valuesAt p s p.ptrs.stShell p.cda.raw.nel4 p.cda.raw.nv2d
      ∃ m, shellMean A p.cda.raw.neips sh = .ok m ∧ m.stress.length = 6 ∧ m.plastic.length = 1 ∧ m.history.length = p.cda.raw.neips ∧
        ∀ k < 7 + p.cda.raw.neips, ∃ vs, (List.range (points p.cda)).mapM (fun j =>
            (surfaceAt p.cda data (e * p.cda.raw.nv2d + j * surfaceWords p.cda)).value k) = some vs ∧
          m.value k = some (A.mean vs) := by
  obtain ⟨l, e1, e2, hl⟩ := c39_shell_points g hs hi hn hin hw
  refine ⟨l, e1, e2, fun e sh he => ?_⟩
  obtain ⟨h0, h1, h2, ha, hnum, _⟩ := hl e sh he
  refine mean_of_blocks A _ h3 h0 h1 h2 ha hnum fun j hj => surfaceAt_complete _ _ _ ?_
  have he' : e < p.cda.raw.nel4 := by
    have := (List.getElem?_eq_some_iff.1 he).1
    omega
  unfold shellWords at hw
  unfold valuesAt
  rw [wordsFrom_length]
  have := block_inside (x := 0) he' hj (w := surfaceWords p.cda) (nv := p.cda.raw.nv2d) (by omega)
  omega

/-- **C78** for thick shells of a file. -/
theorem c78_thick_shells_of_file {α : Type} (A : Arith α) {p : Plot} (g : Good p.buf) {state s i : Nat} (hs : p.states[state]? = some s)
    (hi : p.cda.istrn = some i) (hn : p.cda.raw.nelt ≠ 0)
    (hin : InFile p s p.ptrs.stThick p.cda.raw.nelt p.cda.raw.nv3dt)
    (hw : thickWords p.cda i = p.cda.raw.nv3dt) (hh : p.cda.raw.neips = 0 ∨ points p.cda ≤ 3) (h3 : 3 ≤ points p.cda) :
    ∃ l, readThickState p state = .ok (p, some l) ∧ l.length = p.cda.raw.nelt ∧
    ∀ (e : Nat) (sh : Shell), l[e]? = some sh →
      let data := valuesAt p s p.ptrs.stThick p.cda.raw.nelt p.cda.raw.nv3dt
      ∃ m, shellMean A p.cda.raw.neips sh = .ok m ∧ m.stress.length = 6 ∧ m.plastic.length = 1 ∧ m.history.length = p.cda.raw.neips ∧
        ∀ k < 7 + p.cda.raw.neips, ∃ vs, (List.range (points p.cda)).mapM (fun j =>
            (surfaceAt p.cda data (e * p.cda.raw.nv3dt + j * surfaceWords p.cda + wordsIf (i = 1 ∧ 3 ≤ j) 12)).value k) = some vs ∧
          m.value k = some (A.mean vs) := by
  obtain ⟨l, e1, e2, hl⟩ := c39_thick_points g hs hi hn hin hw hh
  refine ⟨l, e1, e2, fun e sh he => ?_⟩
  obtain ⟨h0, h1, h2, ha, hnum, _⟩ := hl e sh he
  refine mean_of_blocks A (fun j => surfaceAt p.cda (valuesAt p s p.ptrs.stThick p.cda.raw.nelt p.cda.raw.nv3dt)
    (e * p.cda.raw.nv3dt + j * surfaceWords p.cda + wordsIf (i = 1 ∧ 3 ≤ j) 12)) h3 h0 h1 h2 ha hnum fun j hj => surfaceAt_complete _ _ _ ?_
  have he' : e < p.cda.raw.nelt := by
    have := (List.getElem?_eq_some_iff.1 he).1
    omega
  unfold thickWords at hw
  unfold valuesAt
  rw [wordsFrom_length]
  have hle : wordsIf (decide (i = 1 ∧ 3 ≤ j)) 12 ≤ wordsIf (decide (i = 1 ∧ 3 ≤ points p.cda)) 12 := by
    unfold wordsIf
    by_cases h : i = 1
    · simp only [h, h3, true_and, and_self, decide_true, if_true]
      split <;> omega
    · simp [h]
  exact block_inside he' hj (by omega)

/-- C78 is violated by elements with less than three points: the mean reads points that do not exist, whatever the numbers are. -/
theorem c78_too_few_points {α : Type} (A : Arith α) (hist : Nat) {sh : Shell} (h : sh.mid = none ∨ sh.inner = none ∨ sh.outer = none) (m : MeanSurface α) :
    shellMean A hist sh ≠ .ok m := by
  have hp : ∃ j, j < 3 ∧ sh.point j = none := by
    rcases h with h | h | h
    · exact ⟨0, by omega, h⟩
    · exact ⟨1, by omega, h⟩
    · exact ⟨2, by omega, h⟩
  obtain ⟨j, hj, hp⟩ := hp
  have key : ∀ (left i : Nat) (m m' : MeanSurface α), i ≤ j → j < i + left → addPoints A hist sh left i m ≠ .ok m' := by
    intro left
    induction left with
    | zero => intro i m m' h1 h2; omega
    | succ left ih =>
      intro i m m' h1 h2
      rw [addPoints]
      cases hs : sh.point i with
      | none => exact fun e => (nomatch e)
      | some ip =>
        dsimp only
        have hij : i ≠ j := by
          intro e
          subst e
          rw [hp] at hs
          exact (nomatch hs)
        cases addPoint A hist m ip with
        | ok m1 => exact ih (i + 1) m1 m' (by omega) (by omega)
        | err => exact fun e => (nomatch e)
        | ub => exact fun e => (nomatch e)
        | abort => exact fun e => (nomatch e)
  unfold shellMean
  dsimp only
  cases he : addPoints A hist sh (3 + sh.numAdditional) 0 ⟨List.replicate 6 A.zero, [A.zero], List.replicate hist A.zero⟩ with
  | ok m1 => exact absurd he (key _ _ _ _ (by omega) (by omega))
  | err => exact fun e => (nomatch e)
  | ub => exact fun e => (nomatch e)
  | abort => exact fun e => (nomatch e)

/-- Auxiliary of the example: three points with one history variable. -/
def meanSample : Shell :=
  { mid := some ⟨[1, 2, 3, 4, 5, 6], [7], [8]⟩
    inner := some ⟨[3, 2, 1, 0, 0, 0], [1], [1]⟩
    outer := some ⟨[2, 2, 2, 2, 1, 0], [1], [3]⟩ }

/-- Not vacuous: the numbers are the words. -/
example : shellMean (exact fun w => w) 1 meanSample = .ok ⟨[2, 2, 2, 2, 2, 2], [3], [4]⟩ := by decide +kernel

/-- Not vacuous: a file with shells of three points. -/
theorem c78_sample : ∃ p, openPlot (elementFiles [(31, 1), (33, 21), (36, 3), (43, 1000), (44, 1000)] (List.replicate 5 1) 21) = .ok p ∧
    p.states.length = 1 ∧ p.cda.istrn = some 0 ∧ points p.cda = 3 ∧ shellWords p.cda 0 = p.cda.raw.nv2d ∧ p.cda.raw.nel4 = 1 ∧
    InFile p (p.states.headD 0) p.ptrs.stShell p.cda.raw.nel4 p.cda.raw.nv2d := by
  obtain ⟨p, h1, h2⟩ := Res.is_iff (r := openPlot (elementFiles [(31, 1), (33, 21), (36, 3), (43, 1000), (44, 1000)] (List.replicate 5 1) 21))
    (f := fun p => decide (p.states.length = 1 ∧ p.cda.istrn = some 0 ∧ points p.cda = 3 ∧ shellWords p.cda 0 = p.cda.raw.nv2d ∧
      p.cda.raw.nel4 = 1 ∧ (p.states.headD 0) + p.ptrs.stShell < words p.buf ∧
      (p.states.headD 0) + p.ptrs.stShell + p.cda.raw.nel4 * p.cda.raw.nv2d ≤ words p.buf)) (by decide +kernel)
  obtain ⟨a1, a2, a3, a4, a5, a6⟩ := of_decide_eq_true h2
  exact ⟨p, h1, a1, a2, a3, a4, a5, a6⟩

end Dyna.D3
