import Verif.Props.D3Elements
/-!
# Properties of the state data of elements (C38, C39)

The specification says where the values of an element are: `surfaceAt`, `solidAt`, `shellAt`,
`thickAt` and `beamAt` take the values of a state and a position, and the functions `…Words` say how
many values there are. They do not use the cursor of the model.
-/

namespace Dyna.D3

/-! ## Specification -/

/-- `n` values from position `o` on. -/
def slice (data : List Nat) (o n : Nat) : List Nat := (data.drop o).take n
/-- `n` values from position `o` on if they are in the file, otherwise zeros. -/
def sliceIf (flag : Bool) (data : List Nat) (o n : Nat) : List Nat :=
  if flag then slice data o n else List.replicate n 0
/-- The number of values that are in the file. -/
def wordsIf (flag : Bool) (n : Nat) : Nat := if flag then n else 0

/-- Values of an integration point: stress, plastic strain, history variables. -/
def surfaceWords (c : Cda) : Nat :=
  wordsIf (c.ioshl.1 ≠ 0) 6 + wordsIf (c.ioshl.2.1 ≠ 0) 1 + c.raw.neips
def surfaceAt (c : Cda) (data : List Nat) (o : Nat) : Surface :=
  ⟨sliceIf (c.ioshl.1 ≠ 0) data o 6,
   sliceIf (c.ioshl.2.1 ≠ 0) data (o + wordsIf (c.ioshl.1 ≠ 0) 6) 1,
   slice data (o + wordsIf (c.ioshl.1 ≠ 0) 6 + wordsIf (c.ioshl.2.1 ≠ 0) 1) c.raw.neips⟩

/-- Values of a solid; the last six history variables are the strains if they are written. -/
def solidWords (c : Cda) : Nat :=
  wordsIf (c.iosol.1 ≠ 0) 6 + wordsIf (c.iosol.2 ≠ 0) 1 + c.raw.neiph
def solidAt (c : Cda) (istrn : Nat) (data : List Nat) (o : Nat) : Solid :=
  ⟨sliceIf (c.iosol.1 ≠ 0) data o 6, sliceIf (c.iosol.2 ≠ 0) data (o + wordsIf (c.iosol.1 ≠ 0) 6) 1,
   sliceIf (istrn = 1 ∧ c.raw.neiph ≥ 6) data (o + solidWords c - 6) 6⟩

/-- Values of a shell: the integration points, forces, thickness and energy, strains. -/
def shellWords (c : Cda) (istrn : Nat) : Nat :=
  points c * surfaceWords c + wordsIf (c.ioshl.2.2.1 ≠ 0) 8 + wordsIf (c.ioshl.2.2.2 ≠ 0) 4 +
    wordsIf (istrn = 1) 12

/-- Values of a thick shell: three integration points, strains, the other integration points. -/
def thickWords (c : Cda) (istrn : Nat) : Nat :=
  points c * surfaceWords c + wordsIf (istrn = 1 ∧ 3 ≤ points c) 12

/-- Values of a beam. -/
def beamWords (c : Cda) : Nat := 6 + 5 * c.beamip + 3 * c.ext.neipb + c.beamip * c.ext.neipb
/-- Integration point `j` of a beam at position `o`. -/
def beamPointAt (c : Cda) (data : List Nat) (o j : Nat) : BeamPoint :=
  ⟨slice data (o + 6 + 5 * j) 5,
   slice data (o + 6 + 5 * c.beamip + 3 * c.ext.neipb + j * c.ext.neipb) c.ext.neipb⟩
def beamAt (c : Cda) (data : List Nat) (o : Nat) : Beam :=
  ⟨slice data o 6, (List.range c.beamip).map (beamPointAt c data o),
   slice data (o + 6 + 5 * c.beamip) c.ext.neipb,
   slice data (o + 6 + 5 * c.beamip + c.ext.neipb) c.ext.neipb,
   slice data (o + 6 + 5 * c.beamip + 2 * c.ext.neipb) c.ext.neipb⟩

/-! ## The cursor -/

/-- `f` uses exactly `k` values and returns `v`, or it is undefined behaviour if there are less. -/
def Exact {α : Type} (f : Cur α) (k : Nat) (v : List Nat → Nat → α) : Prop :=
  ∀ (data : List Nat) (o : Nat), o ≤ data.length →
    f data o = if o + k ≤ data.length then some (v data o, o + k) else none

theorem exact_pure {α : Type} (a : α) : Exact (pure a) 0 (fun _ _ => a) := by
  intro data o h
  rw [if_pos (by omega)]
  rfl

theorem exact_next (n : Nat) : Exact (next n) n (fun data o => slice data o n) := by
  intro data o _
  rfl

theorem exact_nextIf (flag : Bool) (n : Nat) :
    Exact (nextIf flag n) (wordsIf flag n) (fun data o => sliceIf flag data o n) := by
  cases flag
  · exact exact_pure _
  · exact exact_next n

theorem exact_bind {α β : Type} {m : Cur α} {f : α → Cur β} {k1 k2 : Nat} {v1 : List Nat → Nat → α}
    {v2 : α → List Nat → Nat → β} (h1 : Exact m k1 v1) (h2 : ∀ a, Exact (f a) k2 (v2 a)) :
    Exact (m >>= f) (k1 + k2) (fun data o => v2 (v1 data o) data (o + k1)) := by
  intro data o ho
  show (match m data o with | some (a, o') => f a data o' | none => none) = _
  rw [h1 data o ho]
  by_cases h : o + k1 ≤ data.length
  · rw [if_pos h]
    simp only
    rw [h2 _ data (o + k1) h, Nat.add_assoc]
  · rw [if_neg h, if_neg (by omega)]

theorem exact_checkWrite {fin size : Nat} (h : fin ≤ size) : Exact (checkWrite fin size) 0 (fun _ _ => ()) := by
  intro data o ho
  rw [if_pos (by omega)]
  exact if_pos h

theorem exact_cast {α : Type} {f : Cur α} {k k' : Nat} {v v' : List Nat → Nat → α} (h : Exact f k v)
    (hk : k = k') (hv : ∀ data o, v data o = v' data o) : Exact f k' v' := by
  subst hk
  intro data o ho
  rw [h data o ho, hv]

theorem exact_times {α : Type} {f : Nat → Cur α} {k : Nat} {v : Nat → List Nat → Nat → α} : ∀ (n i : Nat),
    (∀ j, i ≤ j → j < i + n → Exact (f j) k (v j)) →
    Exact (times f n i) (n * k) (fun data o => (List.range n).map fun j => v (i + j) data (o + j * k)) := by
  intro n
  induction n with
  | zero => intro i _; exact exact_cast (exact_pure _) (by simp) (fun _ _ => rfl)
  | succ n ih =>
    intro i h
    refine exact_cast (exact_bind (h i (Nat.le_refl _) (by omega)) fun a =>
      exact_bind (ih (i + 1) fun j h1 h2 => h j (by omega) (by omega)) fun as => exact_pure (a :: as)) ?_ ?_
    · rw [Nat.succ_mul]; omega
    · intro data o
      rw [range_succ_map, Nat.zero_mul]
      congr 1
      apply List.map_congr_left
      intro j _
      rw [Nat.succ_mul, show i + 1 + j = i + (j + 1) by omega, show o + k + j * k = o + (j * k + k) by omega]

/-- The loop over the elements. -/
theorem decodeAll_exact {α : Type} {f : Nat → Cur α} {k n nv : Nat} {v : Nat → List Nat → Nat → α}
    (h : ∀ e, e < n → Exact (f e) k (v e)) {data : List Nat} (hd : data.length = n * nv) (hs : n * nv < u64) :
    decodeAll f n nv data =
      if n = 0 ∨ k = nv then .ok (some ((List.range n).map fun e => v e data (e * k)))
      else if k < nv then .ok none else .ub := by
  have hx := exact_times n 0 (fun j _ hj => h j (by omega)) data 0 (Nat.zero_le _)
  unfold decodeAll
  rw [hx, hd, Nat.zero_add]
  rcases Nat.eq_zero_or_pos n with h0 | h0
  · subst h0
    simp
  · rcases Nat.lt_trichotomy k nv with hk | hk | hk
    · have hlt : n * k < n * nv := Nat.mul_lt_mul_of_pos_left hk h0
      rw [if_pos (by omega), if_neg (by omega), if_pos hk]
      simp only
      rw [if_neg]
      rw [Nat.mod_eq_of_lt (by omega), Nat.mod_eq_of_lt hs]
      omega
    · subst hk
      rw [if_pos (Nat.le_refl _), if_pos (.inr rfl)]
      simp only [if_true, Nat.zero_add]
    · have hlt : n * nv < n * k := Nat.mul_lt_mul_of_pos_left hk h0
      rw [if_neg (by omega), if_neg (by omega), if_neg (by omega)]

/-! ## Every kind of element -/

theorem exact_surface (c : Cda) {slot size : Nat} (h : c.raw.neips = 0 ∨ (slot + 1) * c.raw.neips ≤ size) :
    Exact (surface c slot size) (surfaceWords c) (surfaceAt c) := by
  unfold surface
  by_cases h0 : c.raw.neips = 0
  · refine exact_cast (exact_bind (exact_nextIf _ 6) fun a => exact_bind (exact_nextIf _ 1) fun b =>
      (show Exact (if c.raw.neips = 0 then pure ⟨a, b, []⟩ else do
          checkWrite ((slot + 1) * c.raw.neips) size
          let history ← next c.raw.neips
          pure ⟨a, b, history⟩ : Cur Surface) 0 (fun _ _ => ⟨a, b, []⟩) by
        rw [if_pos h0]; exact exact_pure _)) ?_ ?_
    · unfold surfaceWords; omega
    · intro data o
      unfold surfaceAt slice
      rw [h0, List.take_zero]
  · have hw : (slot + 1) * c.raw.neips ≤ size := by
      rcases h with h | h
      · exact absurd h h0
      · exact h
    refine exact_cast (exact_bind (exact_nextIf _ 6) fun a => exact_bind (exact_nextIf _ 1) fun b =>
      (show Exact (if c.raw.neips = 0 then pure ⟨a, b, []⟩ else do
          checkWrite ((slot + 1) * c.raw.neips) size
          let history ← next c.raw.neips
          pure ⟨a, b, history⟩ : Cur Surface) (0 + (c.raw.neips + 0))
          (fun data o => ⟨a, b, slice data (o + 0) c.raw.neips⟩) by
        rw [if_neg h0]
        exact exact_bind (exact_checkWrite hw) fun _ => exact_bind (exact_next _) fun x => exact_pure _)) ?_ ?_
    · unfold surfaceWords; omega
    · intro data o
      rfl

theorem cur_bind {α β : Type} {m : Cur α} {f : α → Cur β} {data : List Nat} {o o' : Nat} {a : α}
    (h : m data o = some (a, o')) : (m >>= f) data o = f a data o' := by
  show (match m data o with | some (a, o') => f a data o' | none => none) = _
  rw [h]

theorem cur_bind_none {α β : Type} {m : Cur α} {f : α → Cur β} {data : List Nat} {o : Nat}
    (h : m data o = none) : (m >>= f) data o = none := by
  show (match m data o with | some (a, o') => f a data o' | none => none) = _
  rw [h]

/-- Part of the specification: the values of one solid up to the last one that is used; the
history variables are used only for the strains. -/
def solidRead (c : Cda) (istrn : Nat) : Nat :=
  if istrn = 1 ∧ c.raw.neiph ≥ 6 then solidWords c
  else wordsIf (c.iosol.1 ≠ 0) 6 + wordsIf (c.iosol.2 ≠ 0) 1

theorem solid_run_exact (c : Cda) (istrn : Nat) {data : List Nat} {o : Nat} (ho : o + solidWords c < u64) :
    solid c istrn data o = if solidRead c istrn = 0 ∨ o + solidRead c istrn ≤ data.length then
      some (solidAt c istrn data o, o + solidWords c) else none := by
  have hnext : ∀ (b : Bool) (n o : Nat), nextIf b n data o =
      if b = false ∨ o + n ≤ data.length then some (sliceIf b data o n, o + wordsIf b n) else none := by
    intro b n o
    cases b
    · rw [if_pos (.inl rfl)]; rfl
    · unfold nextIf next sliceIf slice wordsIf
      simp
  have h3 : ∀ o', o' = o + wordsIf (decide (c.iosol.1 ≠ 0)) 6 + wordsIf (decide (c.iosol.2 ≠ 0)) 1 →
      ((if istrn = 1 ∧ c.raw.neiph ≥ 6 then ahead (c.raw.neiph - 6) 6
        else pure (List.replicate 6 0) : Cur (List Nat)) data o') =
      if ¬(istrn = 1 ∧ c.raw.neiph ≥ 6) ∨ o + solidWords c ≤ data.length then
        some ((solidAt c istrn data o).epsilon, o') else none := by
    intro o' e
    unfold solidWords at ho
    unfold solidAt sliceIf slice
    by_cases hs : istrn = 1 ∧ c.raw.neiph ≥ 6
    · rw [if_pos hs]
      unfold ahead
      rw [Nat.mod_eq_of_lt (by omega)]
      have e2 : o' + (c.raw.neiph - 6) = o + solidWords c - 6 := by unfold solidWords; omega
      have e3 : o + solidWords c - 6 + 6 = o + solidWords c := by unfold solidWords; omega
      rw [e2, e3]
      simp only [hs, decide_true, if_true, and_self, not_true_eq_false, false_or]
    · rw [if_neg hs, if_pos (.inl hs)]
      simp only [hs, decide_false, Bool.false_eq_true, if_false]
      rfl
  have hk : solidWords c = wordsIf (c.iosol.1 ≠ 0) 6 + wordsIf (c.iosol.2 ≠ 0) 1 + c.raw.neiph := rfl
  have w6 : wordsIf (decide (c.iosol.1 ≠ 0)) 6 = if c.iosol.1 ≠ 0 then 6 else 0 := by
    unfold wordsIf; simp
  have w1 : wordsIf (decide (c.iosol.2 ≠ 0)) 1 = if c.iosol.2 ≠ 0 then 1 else 0 := by
    unfold wordsIf; simp
  unfold solid
  by_cases c1 : decide (c.iosol.1 ≠ 0) = false ∨ o + 6 ≤ data.length
  · rw [cur_bind (by rw [hnext, if_pos c1])]
    by_cases c2 : decide (c.iosol.2 ≠ 0) = false ∨
        o + wordsIf (decide (c.iosol.1 ≠ 0)) 6 + 1 ≤ data.length
    · rw [cur_bind (by rw [hnext, if_pos c2])]
      by_cases c3 : ¬(istrn = 1 ∧ c.raw.neiph ≥ 6) ∨ o + solidWords c ≤ data.length
      · rw [cur_bind (by rw [h3 _ rfl, if_pos c3]), if_pos]
        · show some (_, _) = some (_, _)
          congr 2
          unfold solidWords at ho ⊢
          rw [Nat.mod_eq_of_lt (by omega)]
          omega
        · unfold solidRead
          split
          · rename_i hs
            rcases c3 with c3 | c3
            · exact absurd hs c3
            · exact .inr c3
          · simp only [decide_eq_false_iff_not] at c1 c2
            rw [w6] at c2 ⊢
            rw [w1]
            by_cases a : c.iosol.1 = 0 <;> by_cases b : c.iosol.2 = 0 <;>
              simp [a, b] at c1 c2 ⊢ <;> omega
      · rw [cur_bind_none (by rw [h3 _ rfl, if_neg c3]), if_neg]
        unfold solidRead
        rw [not_or, Decidable.not_not] at c3
        rw [if_pos c3.1]
        have := c3.1.2
        omega
    · rw [cur_bind_none (by rw [hnext, if_neg c2]), if_neg]
      rw [not_or] at c2
      have w1' : wordsIf (decide (c.iosol.2 ≠ 0)) 1 = 1 := by
        unfold wordsIf; rw [if_pos (by simpa using c2.1)]
      unfold solidRead
      split <;> omega
  · rw [cur_bind_none (by rw [hnext, if_neg c1]), if_neg]
    rw [not_or] at c1
    have w6' : wordsIf (decide (c.iosol.1 ≠ 0)) 6 = 6 := by
      unfold wordsIf; rw [if_pos (by simpa using c1.1)]
    unfold solidRead
    split <;> omega

theorem solid_run (c : Cda) (istrn : Nat) {data : List Nat} {o : Nat} (h : o + solidWords c ≤ data.length)
    (hl : data.length < u64) :
    solid c istrn data o = some (solidAt c istrn data o, o + solidWords c) := by
  rw [solid_run_exact c istrn (by omega), if_pos]
  right
  have : solidRead c istrn ≤ solidWords c := by
    unfold solidRead solidWords
    split <;> omega
  omega

/-- The integration points from a position on, in the order of the file. -/
def fill (c : Cda) (data : List Nat) : (o left j : Nat) → Shell → Shell
  | _, 0, _, s => s
  | o, left + 1, j, s => fill c data (o + surfaceWords c) left (j + 1) (s.put j (surfaceAt c data o))

theorem exact_shellPoints (c : Cda) {e n size : Nat} (he : e < n) (hs : size = c.raw.neips * points c * n) :
    ∀ (left j : Nat) (s : Shell), left + j = points c →
    Exact (shellPoints c e size left j s) (left * surfaceWords c) (fun data o => fill c data o left j s) := by
  intro left
  induction left with
  | zero => intro j s _; exact exact_cast (exact_pure _) (by simp) (fun _ _ => rfl)
  | succ left ih =>
    intro j s hj
    unfold shellPoints
    refine exact_cast (exact_bind (exact_surface c (.inr ?_)) fun a => ih (j + 1) _ (by omega)) ?_ ?_
    · rw [hs, Nat.mul_comm (e * points c + j + 1), Nat.mul_assoc]
      apply Nat.mul_le_mul_left
      have : (e + 1) * points c ≤ n * points c := Nat.mul_le_mul_right _ he
      rw [Nat.succ_mul] at this
      rw [Nat.mul_comm (points c) n]
      omega
    · rw [Nat.succ_mul]; omega
    · intro data o; rfl

/-- A shell whose first `j` integration points are set. -/
structure Filled (s : Shell) (j : Nat) : Prop where
  unset : ∀ k, j ≤ k → s.point k = none
  add : s.add.length = j - 3

theorem put_point {s : Shell} {j : Nat} (h : Filled s j) (ip : Surface) (k : Nat) :
    (s.put j ip).point k = if k = j then some ip else s.point k := by
  unfold Shell.put Shell.point
  have ha := h.add
  match j, k with
  | 0, 0 => rfl
  | 0, 1 => rfl
  | 0, 2 => rfl
  | 0, k + 3 => rfl
  | 1, 0 => rfl
  | 1, 1 => rfl
  | 1, 2 => rfl
  | 1, k + 3 => simp
  | 2, 0 => rfl
  | 2, 1 => rfl
  | 2, 2 => rfl
  | 2, k + 3 => simp
  | j + 3, 0 => simp
  | j + 3, 1 => simp
  | j + 3, 2 => simp
  | j + 3, k + 3 =>
    simp only [Nat.add_right_cancel_iff]
    have hl : s.add.length = j := by simpa using ha
    by_cases hk : k = j
    · subst hk
      rw [if_pos rfl, List.getElem?_append_right (by omega), hl, Nat.sub_self]
      rfl
    · rw [if_neg hk]
      rcases Nat.lt_or_ge k j with h1 | h1
      · rw [List.getElem?_append_left (by omega)]
      · rw [List.getElem?_eq_none (by simp; omega), List.getElem?_eq_none (by omega)]

theorem put_filled {s : Shell} {j : Nat} (h : Filled s j) (ip : Surface) : Filled (s.put j ip) (j + 1) := by
  constructor
  · intro k hk
    rw [put_point h, if_neg (by omega)]
    exact h.unset k (by omega)
  · have ha := h.add
    unfold Shell.put
    match j with
    | 0 => simpa using ha
    | 1 => simpa using ha
    | 2 => simpa using ha
    | j + 3 => simpa using ha

theorem put_rest (s : Shell) (j : Nat) (ip : Surface) :
    (s.put j ip).extra = s.extra ∧ (s.put j ip).strains = s.strains := by
  unfold Shell.put
  split <;> exact ⟨rfl, rfl⟩

theorem fill_point (c : Cda) (data : List Nat) : ∀ (left : Nat) {o j : Nat} {s : Shell}, Filled s j →
    Filled (fill c data o left j s) (j + left) ∧
    ∀ k, (fill c data o left j s).point k = if k < j then s.point k
      else if k < j + left then some (surfaceAt c data (o + (k - j) * surfaceWords c)) else none := by
  intro left
  induction left with
  | zero =>
    intro o j s h
    refine ⟨h, ?_⟩
    intro k
    by_cases hk : k < j
    · rw [if_pos hk]; rfl
    · rw [if_neg hk, if_neg (by omega)]
      exact h.unset k (by omega)
  | succ left ih =>
    intro o j s h
    have ⟨h1, h2⟩ := ih (o := o + surfaceWords c) (put_filled h (surfaceAt c data o))
    refine ⟨by rw [show j + (left + 1) = j + 1 + left by omega]; exact h1, ?_⟩
    intro k
    unfold fill
    rw [h2 k, put_point h]
    by_cases hk : k < j
    · rw [if_pos (by omega), if_neg (by omega), if_pos hk]
    · rw [if_neg hk]
      by_cases hk' : k = j
      · subst hk'
        rw [if_pos (by omega), if_pos rfl, if_pos (by omega), Nat.sub_self, Nat.zero_mul, Nat.add_zero]
      · rw [if_neg (by omega)]
        by_cases hk2 : k < j + (left + 1)
        · rw [if_pos (by omega), if_pos hk2, show k - j = (k - (j + 1)) + 1 by omega, Nat.succ_mul]
          congr 2
          omega
        · rw [if_neg (by omega), if_neg hk2]

theorem filled_empty : Filled {} 0 := by
  constructor
  · intro k _
    match k with
    | 0 => rfl
    | 1 => rfl
    | 2 => rfl
    | k + 3 => rfl
  · rfl

/-- What the decoding returns for a shell. -/
def shellAt (c : Cda) (istrn : Nat) (data : List Nat) (o : Nat) : Shell :=
  let p := o + points c * surfaceWords c
  { fill c data o (points c) 0 {} with
    extra := sliceIf (c.ioshl.2.2.1 ≠ 0) data p 8 ++
      sliceIf (c.ioshl.2.2.2 ≠ 0) data (p + wordsIf (c.ioshl.2.2.1 ≠ 0) 8) 4
    strains := if istrn = 0 ∨ istrn = 1 then some (sliceIf (istrn = 1) data
      (p + wordsIf (c.ioshl.2.2.1 ≠ 0) 8 + wordsIf (c.ioshl.2.2.2 ≠ 0) 4) 12) else none
    numAdditional := (points c + 253) % 256 }

theorem exact_shell (c : Cda) (istrn : Nat) {e n size : Nat} (he : e < n)
    (hs : size = c.raw.neips * points c * n) :
    Exact (shell c istrn size e) (shellWords c istrn) (shellAt c istrn) := by
  have hstr : Exact ((if istrn = 0 then pure (some (List.replicate 12 0))
    else if istrn = 1 then do
      let x ← next 12
      pure (some x)
    else pure none : Cur (Option (List Nat)))) (wordsIf (istrn = 1) 12)
      (fun data o => if istrn = 0 ∨ istrn = 1 then some (sliceIf (istrn = 1) data o 12) else none) := by
    by_cases h0 : istrn = 0
    · subst h0
      exact exact_pure _
    · rw [if_neg h0]
      by_cases h1 : istrn = 1
      · subst h1
        exact exact_bind (exact_next 12) fun _ => exact_pure _
      · rw [if_neg h1]
        refine exact_cast (exact_pure none) ?_ ?_
        · simp [wordsIf, h1]
        · intro data o
          rw [if_neg (by omega)]
  unfold shell
  refine exact_cast (exact_bind (exact_shellPoints c he hs (points c) 0 {} rfl) fun s =>
    exact_bind (exact_nextIf _ 8) fun a => exact_bind (exact_nextIf _ 4) fun b =>
    exact_bind hstr fun d => exact_pure _) ?_ ?_
  · unfold shellWords; omega
  · intro data o
    rfl

/-- The integration points of a thick shell: the strains are behind the third one. -/
def fillThick (c : Cda) (istrn : Nat) (data : List Nat) : (o left j : Nat) → Shell → Shell
  | _, 0, _, s => s
  | o, left + 1, j, s =>
    let s := s.put j (surfaceAt c data o)
    if j = 2 then
      fillThick c istrn data (o + surfaceWords c + wordsIf (istrn = 1) 12) left (j + 1)
        { s with strains := some (sliceIf (istrn = 1) data (o + surfaceWords c) 12) }
    else fillThick c istrn data (o + surfaceWords c) left (j + 1) s

theorem exact_thickPoints (c : Cda) (istrn : Nat) {e n size : Nat} (he : e < n) (hs : size = n * 3 * c.raw.neips)
    (h3 : c.raw.neips = 0 ∨ points c ≤ 3) : ∀ (left j : Nat) (s : Shell), left + j = points c →
    Exact (thickPoints c istrn e size left j s)
      (left * surfaceWords c + wordsIf (istrn = 1 ∧ j ≤ 2 ∧ 2 < j + left) 12)
      (fun data o => fillThick c istrn data o left j s) := by
  intro left
  induction left with
  | zero =>
    intro j s _
    refine exact_cast (exact_pure _) ?_ (fun _ _ => rfl)
    simp only [wordsIf, Nat.zero_mul]
    rw [if_neg (by rw [decide_eq_true_eq]; omega)]
  | succ left ih =>
    intro j s hj
    have hw : c.raw.neips = 0 ∨ (e * points c + j + 1) * c.raw.neips ≤ size := by
      rcases h3 with h3 | h3
      · exact .inl h3
      · refine .inr ?_
        rw [hs]
        apply Nat.mul_le_mul_right
        have h1 : (e + 1) * points c ≤ n * points c := Nat.mul_le_mul_right _ he
        have h2 : n * points c ≤ n * 3 := Nat.mul_le_mul_left _ h3
        rw [Nat.succ_mul] at h1
        omega
    unfold thickPoints
    by_cases h2 : j = 2
    · subst h2
      refine exact_cast (exact_bind (exact_surface c hw) fun a => (show Exact (do
          let strains ← nextIf (istrn = 1) 12
          thickPoints c istrn e size left (2 + 1) { s.put 2 a with strains := some strains } : Cur Shell) _ _ from
        exact_bind (exact_nextIf _ 12) fun x => ih (2 + 1) _ (by omega))) ?_ ?_
      · rw [Nat.succ_mul]
        have : wordsIf (decide (istrn = 1 ∧ 2 + 1 ≤ 2 ∧ 2 < 2 + 1 + left)) 12 = 0 := by
          simp [wordsIf]
        rw [this]
        have : wordsIf (decide (istrn = 1 ∧ 2 ≤ 2 ∧ 2 < 2 + (left + 1))) 12 = wordsIf (decide (istrn = 1)) 12 := by
          congr 2
          simp
        rw [this]
        omega
      · intro data o
        rfl
    · simp only [if_neg h2]
      refine exact_cast (exact_bind (exact_surface c hw) fun a => ih (j + 1) _ (by omega)) ?_ ?_
      · rw [Nat.succ_mul]
        have : (istrn = 1 ∧ j + 1 ≤ 2 ∧ 2 < j + 1 + left) ↔ (istrn = 1 ∧ j ≤ 2 ∧ 2 < j + (left + 1)) := by omega
        simp only [this]
        omega
      · intro data o
        exact (if_neg h2).symm

def thickAt (c : Cda) (istrn : Nat) (data : List Nat) (o : Nat) : Shell :=
  { fillThick c istrn data o (points c) 0 {} with numAdditional := (points c + 253) % 256 }

theorem exact_thick (c : Cda) (istrn : Nat) {e n size : Nat} (he : e < n) (hs : size = n * 3 * c.raw.neips)
    (h3 : c.raw.neips = 0 ∨ points c ≤ 3) :
    Exact (thickShell c istrn size e) (thickWords c istrn) (thickAt c istrn) := by
  unfold thickShell
  refine exact_cast (exact_bind (exact_thickPoints c istrn he hs h3 (points c) 0 {} rfl) fun s =>
    exact_pure _) ?_ ?_
  · unfold thickWords
    have : (istrn = 1 ∧ 0 ≤ 2 ∧ 2 < 0 + points c) ↔ (istrn = 1 ∧ 3 ≤ points c) := by omega
    simp only [this]
    rfl
  · intro data o
    rfl

theorem exact_beam (c : Cda) : Exact (beam c) (beamWords c) (beamAt c) := by
  unfold beam
  have hv := exact_times (f := fun _ => next 5) (v := fun _ data o => slice data o 5) (k := 5) c.beamip 0
    (fun _ _ _ => exact_next 5)
  have hh := exact_times (f := fun _ => next c.ext.neipb) (v := fun _ data o => slice data o c.ext.neipb)
    (k := c.ext.neipb) c.beamip 0 (fun _ _ _ => exact_next _)
  refine exact_cast (exact_bind (exact_next 6) fun r => exact_bind hv fun v =>
    exact_bind (exact_next _) fun a => exact_bind (exact_next _) fun b => exact_bind (exact_next _) fun d =>
    exact_bind hh fun h => exact_pure _) ?_ ?_
  · unfold beamWords; omega
  · intro data o
    unfold beamAt
    congr 1
    · rw [List.zipWith_map, List.zipWith_self]
      apply List.map_congr_left
      intro j _
      unfold beamPointAt
      congr 2 <;> omega
    · congr 1; omega
    · congr 1; omega
    · congr 1; omega


theorem fillThick_point (c : Cda) (istrn : Nat) (data : List Nat) : ∀ (left : Nat) {o j : Nat} {s : Shell},
    Filled s j →
    (∀ k, (fillThick c istrn data o left j s).point k = if k < j then s.point k
      else if k < j + left then some (surfaceAt c data (o + (k - j) * surfaceWords c +
        wordsIf (istrn = 1 ∧ j ≤ 2 ∧ 3 ≤ k) 12)) else none) ∧
    (fillThick c istrn data o left j s).add.length = j + left - 3 ∧
    (fillThick c istrn data o left j s).strains = if j ≤ 2 ∧ 2 < j + left then
      some (sliceIf (istrn = 1) data (o + (3 - j) * surfaceWords c) 12) else s.strains := by
  intro left
  induction left with
  | zero =>
    intro o j s h
    refine ⟨?_, h.add, ?_⟩
    · intro k
      by_cases hk : k < j
      · rw [if_pos hk]; rfl
      · rw [if_neg hk, if_neg (by omega)]
        exact h.unset k (by omega)
    · rw [if_neg (by omega)]; rfl
  | succ left ih =>
    intro o j s h
    by_cases h2 : j = 2
    · subst h2
      have hf : Filled { s.put 2 (surfaceAt c data o) with
          strains := some (sliceIf (istrn = 1) data (o + surfaceWords c) 12) } 3 :=
        ⟨(put_filled h (surfaceAt c data o)).unset, (put_filled h (surfaceAt c data o)).add⟩
      have ⟨h1, h2, h3⟩ := ih (o := o + surfaceWords c + wordsIf (istrn = 1) 12) hf
      have heq : fillThick c istrn data o (left + 1) 2 s = fillThick c istrn data
          (o + surfaceWords c + wordsIf (istrn = 1) 12) left 3 { s.put 2 (surfaceAt c data o) with
          strains := some (sliceIf (istrn = 1) data (o + surfaceWords c) 12) } := rfl
      rw [heq]
      refine ⟨?_, by rw [h2]; omega, ?_⟩
      · intro k
        rw [h1 k]
        have hp := put_point h (surfaceAt c data o) k
        by_cases hk : k < 2
        · rw [if_pos (by omega), if_pos hk]
          rw [if_neg (by omega)] at hp
          exact hp
        · rw [if_neg hk]
          by_cases hk' : k = 2
          · subst hk'
            rw [if_pos (by omega), if_pos (by omega), Nat.sub_self, Nat.zero_mul]
            rw [if_pos rfl] at hp
            have : wordsIf (decide (istrn = 1 ∧ 2 ≤ 2 ∧ 3 ≤ 2)) 12 = 0 := by simp [wordsIf]
            rw [this]
            exact hp
          · rw [if_neg (by omega)]
            by_cases hk2 : k < 2 + (left + 1)
            · rw [if_pos (by omega), if_pos hk2, show k - 2 = (k - 3) + 1 by omega, Nat.succ_mul]
              have e1 : wordsIf (decide (istrn = 1 ∧ 3 ≤ 2 ∧ 3 ≤ k)) 12 = 0 := by simp [wordsIf]
              have e2 : wordsIf (decide (istrn = 1 ∧ 2 ≤ 2 ∧ 3 ≤ k)) 12 = wordsIf (decide (istrn = 1)) 12 := by
                congr 2
                simp
                omega
              rw [e1, e2]
              congr 2
              omega
            · rw [if_neg (by omega), if_neg hk2]
      · rw [h3, if_neg (by omega), if_pos (by omega)]
        simp
    · have ⟨h1, h2', h3⟩ := ih (o := o + surfaceWords c) (put_filled h (surfaceAt c data o))
      have heq : fillThick c istrn data o (left + 1) j s =
          fillThick c istrn data (o + surfaceWords c) left (j + 1) (s.put j (surfaceAt c data o)) := if_neg h2
      rw [heq]
      refine ⟨?_, by rw [h2']; omega, ?_⟩
      · intro k
        rw [h1 k, put_point h]
        by_cases hk : k < j
        · rw [if_pos (by omega), if_neg (by omega), if_pos hk]
        · rw [if_neg hk]
          by_cases hk' : k = j
          · subst hk'
            rw [if_pos (by omega), if_pos rfl, if_pos (by omega), Nat.sub_self, Nat.zero_mul, Nat.add_zero]
            have : wordsIf (decide (istrn = 1 ∧ k ≤ 2 ∧ 3 ≤ k)) 12 = 0 := by
              unfold wordsIf
              rw [if_neg (by simp; omega)]
            rw [this]
            rfl
          · rw [if_neg (by omega)]
            by_cases hk2 : k < j + (left + 1)
            · rw [if_pos (by omega), if_pos hk2, show k - j = (k - (j + 1)) + 1 by omega, Nat.succ_mul]
              have : (istrn = 1 ∧ j + 1 ≤ 2 ∧ 3 ≤ k) ↔ (istrn = 1 ∧ j ≤ 2 ∧ 3 ≤ k) := by omega
              simp only [this]
              congr 2
              omega
            · rw [if_neg (by omega), if_neg hk2]
      · rw [h3]
        by_cases hj : j + 1 ≤ 2 ∧ 2 < j + 1 + left
        · rw [if_pos hj, if_pos (by omega), show 3 - j = (3 - (j + 1)) + 1 by omega, Nat.succ_mul]
          congr 2
          omega
        · rw [if_neg hj, if_neg (by omega)]
          exact (put_rest _ _ _).2

/-! ## C38 -/

/-- The values of `n` elements with `nv` values at `ptr` behind the start `s` of a state are in the
files. For the families of C32 this holds for every state (`family_state`). -/
def InFile (p : Plot) (s ptr n nv : Nat) : Prop := s + ptr < words p.buf ∧ s + ptr + n * nv ≤ words p.buf

/-- The values of the elements of a kind in a state. -/
def valuesAt (p : Plot) (s ptr n nv : Nat) : List Nat := wordsFrom p.buf (s + ptr) (n * nv)

/-- The number of beam integration points that is derived from the control data never needs more
values than a beam has. -/
theorem beam_fits {r : Raw} {x : Extra} {c : Cda} (h : derive r x = .ok c) (hn : c.raw.nv1d < u64)
    (h1 : c.ext.neipb ≤ 255) (h2 : c.beamip ≤ 255) : beamWords c ≤ c.raw.nv1d := by
  obtain ⟨e1, e2, -, -, hb, -⟩ := derive_inv h
  rw [← e1, ← e2] at hb
  have em : c.ext.neipb * 3 % u64 = c.ext.neipb * 3 := Nat.mod_eq_of_lt (by unfold u64; omega)
  have em2 : (5 + c.ext.neipb) % u64 = 5 + c.ext.neipb := Nat.mod_eq_of_lt (by unfold u64; omega)
  rw [em, em2] at hb
  have hdm := Nat.div_add_mod (sub64 (sub64 c.raw.nv1d 6) (c.ext.neipb * 3)) (5 + c.ext.neipb)
  have hlt := Nat.mod_lt (sub64 (sub64 c.raw.nv1d 6) (c.ext.neipb * 3)) (show 5 + c.ext.neipb > 0 by omega)
  rw [← hb] at hdm
  have hprod : (5 + c.ext.neipb) * c.beamip ≤ 260 * 255 := Nat.mul_le_mul (by omega) h2
  have hsplit : (5 + c.ext.neipb) * c.beamip = 5 * c.beamip + c.beamip * c.ext.neipb := by
    rw [Nat.add_mul, Nat.mul_comm c.ext.neipb]
  unfold beamWords
  rw [hsplit] at hdm hprod
  generalize c.beamip * c.ext.neipb = m at *
  unfold sub64 at *
  unfold u64 at *
  omega

/-- C38 for shells, exactly: the call is undefined behaviour if and only if the values the flags,
MAXINT, NEIPS and ISTRN require are more than NV2D; if they are less the call fails. -/
theorem c38_shells_exact {p : Plot} (g : Good p.buf) {state s i : Nat} (hs : p.states[state]? = some s)
    (hi : p.cda.istrn = some i) (hn : p.cda.raw.nel4 ≠ 0)
    (hin : InFile p s p.ptrs.stShell p.cda.raw.nel4 p.cda.raw.nv2d) :
    readShellsState p state =
      if shellWords p.cda i = p.cda.raw.nv2d then
        .ok (p, some ((List.range p.cda.raw.nel4).map fun e => shellAt p.cda i
          (valuesAt p s p.ptrs.stShell p.cda.raw.nel4 p.cda.raw.nv2d) (e * p.cda.raw.nv2d)))
      else if shellWords p.cda i < p.cda.raw.nv2d then .ok (p, none) else .ub := by
  unfold readShellsState
  rw [readElementState_at g hn hs rfl _ hin.1 hin.2]
  unfold withStrain
  rw [hi]
  simp only
  have hw := words_small g
  rw [decodeAll_exact (fun e he => exact_shell p.cda i he rfl) (wordsFrom_length _ _ _)
    (by have := hin.2; unfold u64; omega)]
  by_cases h1 : shellWords p.cda i = p.cda.raw.nv2d
  · rw [if_pos (.inr h1), if_pos h1, h1]
    rfl
  · rw [if_neg (by omega), if_neg h1]
    split <;> rfl

/-- C38 for thick shells, exactly, if there are no history variables or at most three points. -/
theorem c38_thick_exact {p : Plot} (g : Good p.buf) {state s i : Nat} (hs : p.states[state]? = some s)
    (hi : p.cda.istrn = some i) (hn : p.cda.raw.nelt ≠ 0)
    (hin : InFile p s p.ptrs.stThick p.cda.raw.nelt p.cda.raw.nv3dt)
    (h3 : p.cda.raw.neips = 0 ∨ points p.cda ≤ 3) :
    readThickState p state =
      if thickWords p.cda i = p.cda.raw.nv3dt then
        .ok (p, some ((List.range p.cda.raw.nelt).map fun e => thickAt p.cda i
          (valuesAt p s p.ptrs.stThick p.cda.raw.nelt p.cda.raw.nv3dt) (e * p.cda.raw.nv3dt)))
      else if thickWords p.cda i < p.cda.raw.nv3dt then .ok (p, none) else .ub := by
  unfold readThickState
  rw [readElementState_at g hn hs rfl _ hin.1 hin.2]
  unfold withStrain
  rw [hi]
  simp only
  have hw := words_small g
  rw [decodeAll_exact (fun e he => exact_thick p.cda i he rfl h3) (wordsFrom_length _ _ _)
    (by have := hin.2; unfold u64; omega)]
  by_cases h1 : thickWords p.cda i = p.cda.raw.nv3dt
  · rw [if_pos (.inr h1), if_pos h1, h1]
    rfl
  · rw [if_neg (by omega), if_neg h1]
    split <;> rfl

theorem cur_bind_inv {α β : Type} {m : Cur α} {f : α → Cur β} {data : List Nat} {o : Nat} {x : β × Nat}
    (h : (m >>= f) data o = some x) : ∃ a o', m data o = some (a, o') ∧ f a data o' = some x := by
  change (match m data o with | some (a, o') => f a data o' | none => none) = _ at h
  split at h
  · rename_i a o' e
    exact ⟨a, o', e, h⟩
  · exact absurd h (by simp)

theorem surface_write {c : Cda} {slot size : Nat} {data : List Nat} {o : Nat} {x : Surface × Nat}
    (hn : c.raw.neips ≠ 0) (h : surface c slot size data o = some x) : (slot + 1) * c.raw.neips ≤ size := by
  unfold surface at h
  obtain ⟨_, _, _, h⟩ := cur_bind_inv h
  obtain ⟨_, _, _, h⟩ := cur_bind_inv h
  rw [if_neg hn] at h
  obtain ⟨_, _, h, _⟩ := cur_bind_inv h
  unfold checkWrite at h
  split at h
  · assumption
  · exact absurd h (by simp)

theorem thickPoints_write {c : Cda} {istrn e size : Nat} {data : List Nat} (hn : c.raw.neips ≠ 0) :
    ∀ (left j : Nat) (s : Shell) (o : Nat) (x : Shell × Nat), thickPoints c istrn e size left j s data o = some x →
      ∀ t, t < left → (e * points c + (j + t) + 1) * c.raw.neips ≤ size := by
  intro left
  induction left with
  | zero => intro j s o x _ t ht; omega
  | succ left ih =>
    intro j s o x h t ht
    unfold thickPoints at h
    obtain ⟨a, o1, h1, h⟩ := cur_bind_inv h
    rcases Nat.eq_zero_or_pos t with h0 | h0
    · subst h0
      exact surface_write hn h1
    · have e1 : j + t = j + 1 + (t - 1) := by omega
      rw [e1]
      split at h
      · obtain ⟨_, _, _, h⟩ := cur_bind_inv h
        exact ih _ _ _ _ h (t - 1) (by omega)
      · exact ih _ _ _ _ h (t - 1) (by omega)

theorem times_each {α : Type} {f : Nat → Cur α} {data : List Nat} : ∀ (n i o : Nat) (x : List α × Nat),
    times f n i data o = some x → ∀ t, t < n → ∃ o' y, f (i + t) data o' = some y := by
  intro n
  induction n with
  | zero => intro i o x _ t ht; omega
  | succ n ih =>
    intro i o x h t ht
    unfold times at h
    obtain ⟨a, o1, h1, h⟩ := cur_bind_inv h
    obtain ⟨as, o2, h2, _⟩ := cur_bind_inv h
    rcases Nat.eq_zero_or_pos t with h0 | h0
    · subst h0
      exact ⟨_, _, h1⟩
    · have e1 : i + t = i + 1 + (t - 1) := by omega
      rw [e1]
      exact ih _ _ _ h2 (t - 1) (by omega)

/-- C38 for thick shells, the other case: with history variables and more than three points per
element every call is undefined behaviour, whatever the values are: the memory for the history
variables is for three points per element. Together with `c38_thick_exact` this is exact. -/
theorem c38_thick_overflow {p : Plot} (g : Good p.buf) {state s i : Nat} (hs : p.states[state]? = some s)
    (hi : p.cda.istrn = some i) (hn : p.cda.raw.nelt ≠ 0)
    (hin : InFile p s p.ptrs.stThick p.cda.raw.nelt p.cda.raw.nv3dt)
    (h0 : p.cda.raw.neips ≠ 0) (h3 : 3 < points p.cda) :
    readThickState p state = .ub := by
  unfold readThickState
  rw [readElementState_at g hn hs rfl _ hin.1 hin.2]
  unfold withStrain
  rw [hi]
  simp only
  unfold decodeAll
  split
  · rfl
  · rename_i l o h
    exfalso
    obtain ⟨o', y, h1⟩ := times_each _ _ _ _ h (p.cda.raw.nelt - 1) (by omega)
    rw [Nat.zero_add] at h1
    unfold thickShell at h1
    obtain ⟨sh, o2, h2, _⟩ := cur_bind_inv h1
    have h4 := thickPoints_write h0 _ _ _ _ _ h2 (points p.cda - 1) (by omega)
    have h5 := Nat.le_of_mul_le_mul_right h4 (Nat.pos_of_ne_zero h0)
    obtain ⟨m, hm⟩ := Nat.exists_eq_succ_of_ne_zero hn
    rw [hm] at h5
    have h6 : m * 3 ≤ m * points p.cda := Nat.mul_le_mul_left _ (by omega)
    have h7 : m.succ * 3 = m * 3 + 3 := Nat.succ_mul _ _
    rw [h7] at h5
    simp only [Nat.succ_eq_add_one, Nat.add_sub_cancel] at h5
    omega

/-- C38 for beams, for all control data: never undefined behaviour. The values are as
specified, or the call fails. -/
theorem c38_beams {p : Plot} (g : Good p.buf) {state s : Nat} (hs : p.states[state]? = some s)
    (hder : derive p.cda.raw p.cda.ext = .ok p.cda) (hn : p.cda.raw.nel2 ≠ 0) (h64 : p.cda.raw.nv1d < u64)
    (hin : InFile p s p.ptrs.stBeam p.cda.raw.nel2 p.cda.raw.nv1d) :
    readBeamsState p state =
      if p.cda.ext.neipb ≤ 255 ∧ p.cda.beamip ≤ 255 ∧ beamWords p.cda = p.cda.raw.nv1d then
        .ok (p, some ((List.range p.cda.raw.nel2).map fun e => beamAt p.cda
          (valuesAt p s p.ptrs.stBeam p.cda.raw.nel2 p.cda.raw.nv1d) (e * p.cda.raw.nv1d)))
      else .ok (p, none) := by
  unfold readBeamsState
  by_cases ha : p.cda.ext.neipb ≤ 255 ∧ p.cda.beamip ≤ 255
  · rw [readElementState_at g hn hs (by simpa using ha) _ hin.1 hin.2]
    have hw := words_small g
    rw [decodeAll_exact (fun e _ => exact_beam p.cda) (wordsFrom_length _ _ _)
      (by have := hin.2; unfold u64; omega)]
    have hfit := beam_fits hder h64 ha.1 ha.2
    by_cases h1 : beamWords p.cda = p.cda.raw.nv1d
    · rw [if_pos (.inr h1), if_pos ⟨ha.1, ha.2, h1⟩, h1]
      rfl
    · rw [if_neg (show ¬(p.cda.raw.nel2 = 0 ∨ beamWords p.cda = p.cda.raw.nv1d) by omega),
        if_pos (show beamWords p.cda < p.cda.raw.nv1d by omega), if_neg (fun h => h1 h.2.2)]
      rfl
  · have hf : (decide (p.cda.ext.neipb ≤ 255) && decide (p.cda.beamip ≤ 255)) = false := by
      rw [← Bool.not_eq_true]
      simpa using ha
    rw [if_neg (by omega), hf]
    unfold readElementState
    rw [if_neg hn, hs]
    rfl

/-- The memory for the history variables of beams: the places for the integration points and for
average, minimum and maximum (`m` is 0, 1, 2) are inside of the allocated `n * nh * (3 + bi)`
values, and they do not overlap. -/
theorem c38_beam_memory {n bi nh i j k m : Nat} (hi : i < n) (hj : j < bi) (hk : k < nh) (hm : m < 3) :
    i * bi * nh + j * nh + k < n * bi * nh ∧
    n * bi * nh ≤ n * bi * nh + i * 3 * nh + m * nh + k ∧
    n * bi * nh + i * 3 * nh + m * nh + k < n * nh * (3 + bi) := by
  have h1 : (j + 1) * nh ≤ bi * nh := Nat.mul_le_mul_right _ hj
  have h2 : (i + 1) * (bi * nh) ≤ n * (bi * nh) := Nat.mul_le_mul_right _ hi
  have h3 : (m + 1) * nh ≤ 3 * nh := Nat.mul_le_mul_right _ hm
  have h4 : (i + 1) * (3 * nh) ≤ n * (3 * nh) := Nat.mul_le_mul_right _ hi
  have e : n * nh * (3 + bi) = n * (3 * nh) + n * (bi * nh) := by
    rw [Nat.mul_add, Nat.mul_assoc, Nat.mul_assoc, Nat.mul_comm nh 3, Nat.mul_comm nh bi]
  rw [Nat.succ_mul] at h1 h2 h3 h4
  rw [e]
  simp only [Nat.mul_assoc] at *
  omega

/-- The loop over solids, if there are enough values. -/
theorem times_solid (c : Cda) (istrn : Nat) {data : List Nat} (hl : data.length < u64) : ∀ (n i o : Nat),
    o + n * solidWords c ≤ data.length →
    times (fun _ => solid c istrn) n i data o =
      some ((List.range n).map fun e => solidAt c istrn data (o + e * solidWords c), o + n * solidWords c) := by
  intro n
  induction n with
  | zero => intro i o h; simp; rfl
  | succ n ih =>
    intro i o h
    rw [Nat.succ_mul] at h
    unfold times
    rw [cur_bind (solid_run c istrn (by omega) hl), cur_bind (ih (i + 1) (o + solidWords c) (by omega)),
      range_succ_map, Nat.zero_mul, Nat.succ_mul]
    show some (_ :: _, _) = some (_ :: _, _)
    congr 2
    · congr 1
      apply List.map_congr_left
      intro j _
      congr 1
      rw [Nat.succ_mul]
      omega
    · omega

/-- C38 for solids: if NV3D is at least what the flags and NEIPH require then there is no undefined
behaviour; the values are as specified, or the call fails if NV3D is greater. -/
theorem c38_solids {p : Plot} (g : Good p.buf) {state s i : Nat} (hs : p.states[state]? = some s)
    (hi : p.cda.istrn = some i) (hn : toU64 p.cda.raw.nel8 ≠ 0)
    (hin : InFile p s p.ptrs.stSolid (toU64 p.cda.raw.nel8) p.cda.raw.nv3d)
    (hw : solidWords p.cda ≤ p.cda.raw.nv3d) :
    readSolidsState p state =
      if solidWords p.cda = p.cda.raw.nv3d then
        .ok (p, some ((List.range (toU64 p.cda.raw.nel8)).map fun e => solidAt p.cda i
          (valuesAt p s p.ptrs.stSolid (toU64 p.cda.raw.nel8) p.cda.raw.nv3d) (e * p.cda.raw.nv3d)))
      else .ok (p, none) := by
  unfold readSolidsState
  rw [readElementState_at g hn hs rfl _ hin.1 hin.2]
  unfold withStrain
  rw [hi]
  simp only
  have hws := words_small g
  have hb := hin.2
  have hlen : (wordsFrom p.buf (s + p.ptrs.stSolid) (toU64 p.cda.raw.nel8 * p.cda.raw.nv3d)).length =
    toU64 p.cda.raw.nel8 * p.cda.raw.nv3d := wordsFrom_length _ _ _
  have hle : toU64 p.cda.raw.nel8 * solidWords p.cda ≤ toU64 p.cda.raw.nel8 * p.cda.raw.nv3d :=
    Nat.mul_le_mul_left _ hw
  unfold decodeAll
  rw [times_solid p.cda i (by rw [hlen]; unfold u64; omega) _ 0 0 (by rw [hlen]; omega)]
  simp only [Nat.zero_add]
  rw [Nat.mod_eq_of_lt (by unfold u64; omega), Nat.mod_eq_of_lt (by unfold u64; omega)]
  by_cases h1 : solidWords p.cda = p.cda.raw.nv3d
  · rw [h1, if_pos rfl, if_pos rfl]
    rfl
  · rw [if_neg h1, if_neg]
    · rfl
    · intro h
      exact h1 (Nat.eq_of_mul_eq_mul_left (Nat.pos_of_ne_zero hn) h)

theorem times_solid_exact (c : Cda) (istrn : Nat) {data : List Nat} : ∀ (n i o : Nat),
    o + (n + 1) * solidWords c < u64 →
    times (fun _ => solid c istrn) (n + 1) i data o =
      if solidRead c istrn = 0 ∨ o + n * solidWords c + solidRead c istrn ≤ data.length then
        some ((List.range (n + 1)).map fun e => solidAt c istrn data (o + e * solidWords c),
          o + (n + 1) * solidWords c)
      else none := by
  intro n
  induction n with
  | zero =>
    intro i o h
    rw [Nat.one_mul] at h
    unfold times
    have hr := solid_run_exact c istrn (data := data) h
    have e0 : 0 * solidWords c = 0 := Nat.zero_mul _
    by_cases hc : solidRead c istrn = 0 ∨ o + solidRead c istrn ≤ data.length
    · rw [if_pos hc] at hr
      rw [if_pos (by omega), cur_bind hr]
      show some (_, _) = _
      simp
    · rw [if_neg hc] at hr
      rw [if_neg (by omega), cur_bind_none hr]
  | succ n ih =>
    intro i o h
    rw [Nat.succ_mul] at h
    unfold times
    have hr := solid_run_exact c istrn (data := data) (o := o) (by omega)
    have e1 : (n + 1) * solidWords c = n * solidWords c + solidWords c := Nat.succ_mul _ _
    by_cases hc : solidRead c istrn = 0 ∨ o + solidRead c istrn ≤ data.length
    · rw [if_pos hc] at hr
      rw [cur_bind hr]
      have ht := ih (i + 1) (o + solidWords c) (by omega)
      by_cases hd : solidRead c istrn = 0 ∨ o + (n + 1) * solidWords c + solidRead c istrn ≤ data.length
      · rw [if_pos (by omega)] at ht
        rw [if_pos hd, cur_bind ht]
        have e2 := range_succ_map (fun e => solidAt c istrn data (o + e * solidWords c)) (n + 1)
        rw [Nat.zero_mul] at e2
        rw [e2]
        show some (_ :: _, _) = some (_ :: _, _)
        congr 2
        · congr 1
          apply List.map_congr_left
          intro j _
          congr 1
          rw [Nat.succ_mul]
          omega
        · rw [Nat.succ_mul (n + 1)]
          omega
      · rw [if_neg (by omega)] at ht
        rw [if_neg hd, cur_bind_none ht]
    · rw [if_neg hc] at hr
      rw [if_neg (by omega), cur_bind_none hr]

/-- C38 for solids, exactly: the call is undefined behaviour if and only if a value is used that is
behind the values of the state, that is if the last value that is used of the last solid is behind
NEL8 * NV3D. Otherwise the values are as specified, or the call fails if NV3D is not what the flags
and NEIPH require. -/
theorem c38_solids_exact {p : Plot} (g : Good p.buf) {state s i : Nat} (hs : p.states[state]? = some s)
    (hi : p.cda.istrn = some i) (hn : toU64 p.cda.raw.nel8 ≠ 0)
    (hin : InFile p s p.ptrs.stSolid (toU64 p.cda.raw.nel8) p.cda.raw.nv3d)
    (h64 : toU64 p.cda.raw.nel8 * solidWords p.cda < u64) :
    readSolidsState p state =
      if solidRead p.cda i = 0 ∨ (toU64 p.cda.raw.nel8 - 1) * solidWords p.cda + solidRead p.cda i ≤
          toU64 p.cda.raw.nel8 * p.cda.raw.nv3d then
        if solidWords p.cda = p.cda.raw.nv3d then
          .ok (p, some ((List.range (toU64 p.cda.raw.nel8)).map fun e => solidAt p.cda i
            (valuesAt p s p.ptrs.stSolid (toU64 p.cda.raw.nel8) p.cda.raw.nv3d) (e * p.cda.raw.nv3d)))
        else .ok (p, none)
      else .ub := by
  unfold readSolidsState
  rw [readElementState_at g hn hs rfl _ hin.1 hin.2]
  unfold withStrain
  rw [hi]
  simp only
  have hws := words_small g
  have hb := hin.2
  have hlen : (wordsFrom p.buf (s + p.ptrs.stSolid) (toU64 p.cda.raw.nel8 * p.cda.raw.nv3d)).length =
    toU64 p.cda.raw.nel8 * p.cda.raw.nv3d := wordsFrom_length _ _ _
  obtain ⟨m, hm⟩ := Nat.exists_eq_succ_of_ne_zero hn
  unfold decodeAll valuesAt
  rw [hm] at hlen hb h64 ⊢
  rw [Nat.succ_eq_add_one] at hb
  rw [times_solid_exact p.cda i m 0 0 (by rw [Nat.zero_add]; exact h64), hlen]
  simp only [Nat.zero_add, Nat.succ_eq_add_one, Nat.add_sub_cancel]
  by_cases hc : solidRead p.cda i = 0 ∨ m * solidWords p.cda + solidRead p.cda i ≤ (m + 1) * p.cda.raw.nv3d
  · rw [if_pos hc, if_pos hc]
    simp only
    rw [Nat.mod_eq_of_lt h64, Nat.mod_eq_of_lt (by unfold u64; omega)]
    by_cases h1 : solidWords p.cda = p.cda.raw.nv3d
    · rw [h1, if_pos rfl, if_pos rfl]
      rfl
    · rw [if_neg h1, if_neg]
      · rfl
      · intro h
        exact h1 (Nat.eq_of_mul_eq_mul_left (Nat.succ_pos m) h)
  · rw [if_neg hc, if_neg hc]
    rfl

/-- C38, as far as it holds for all four kinds: no undefined behaviour for values that are in the
files, ISTRN that is set, and sizes that are at least what the flags require; thick shells with
history variables have at most three integration points. Missing: the control data that opening
accepts but that does not meet this (`c38_solid_too_short`, `c38_strain_flag_unset`,
`c38_thick_heap_overflow`, `c38_shell_strain_guess`). -/
theorem c38_memory_safe_partial {p : Plot} (g : Good p.buf) {state s i : Nat}
    (hs : p.states[state]? = some s) (hder : derive p.cda.raw p.cda.ext = .ok p.cda)
    (hi : p.cda.istrn = some i) (h64 : p.cda.raw.nv1d < u64)
    (h8 : InFile p s p.ptrs.stSolid (toU64 p.cda.raw.nel8) p.cda.raw.nv3d)
    (h2 : InFile p s p.ptrs.stBeam p.cda.raw.nel2 p.cda.raw.nv1d)
    (h4 : InFile p s p.ptrs.stShell p.cda.raw.nel4 p.cda.raw.nv2d)
    (ht : InFile p s p.ptrs.stThick p.cda.raw.nelt p.cda.raw.nv3dt) :
    (∃ r, readBeamsState p state = .ok (p, r)) ∧
    (solidWords p.cda ≤ p.cda.raw.nv3d → ∃ r, readSolidsState p state = .ok (p, r)) ∧
    (shellWords p.cda i ≤ p.cda.raw.nv2d → ∃ r, readShellsState p state = .ok (p, r)) ∧
    (thickWords p.cda i ≤ p.cda.raw.nv3dt → p.cda.raw.neips = 0 ∨ points p.cda ≤ 3 →
      ∃ r, readThickState p state = .ok (p, r)) := by
  refine ⟨?_, ?_, ?_, ?_⟩
  · by_cases hn : p.cda.raw.nel2 = 0
    · unfold readBeamsState readElementState
      rw [if_pos hn]
      exact ⟨_, rfl⟩
    · rw [c38_beams g hs hder hn h64 h2]
      split <;> exact ⟨_, rfl⟩
  · intro hw
    by_cases hn : toU64 p.cda.raw.nel8 = 0
    · unfold readSolidsState readElementState
      rw [if_pos hn]
      exact ⟨_, rfl⟩
    · rw [c38_solids g hs hi hn h8 hw]
      split <;> exact ⟨_, rfl⟩
  · intro hw
    by_cases hn : p.cda.raw.nel4 = 0
    · unfold readShellsState readElementState
      rw [if_pos hn]
      exact ⟨_, rfl⟩
    · rw [c38_shells_exact g hs hi hn h4]
      by_cases h1 : shellWords p.cda i = p.cda.raw.nv2d
      · rw [if_pos h1]; exact ⟨_, rfl⟩
      · rw [if_neg h1, if_pos (by omega)]; exact ⟨_, rfl⟩
  · intro hw h3
    by_cases hn : p.cda.raw.nelt = 0
    · unfold readThickState readElementState
      rw [if_pos hn]
      exact ⟨_, rfl⟩
    · rw [c38_thick_exact g hs hi hn ht h3]
      by_cases h1 : thickWords p.cda i = p.cda.raw.nv3dt
      · rw [if_pos h1]; exact ⟨_, rfl⟩
      · rw [if_neg h1, if_pos (by omega)]; exact ⟨_, rfl⟩

/-- One node, elements, and one state with `n` values of elements. -/
def elementFiles (set : List (Nat × Nat)) (connectivity : List Nat) (n : Nat) : List Bytes :=
  [pack (sampleControl ([(11, 1), (15, 4), (16, 1), (17, 6), (18, 6), (20, 1)] ++ set) ++ [11, 12, 13] ++
      connectivity ++ [eof32, eof32]),
   pack ([1000] ++ List.replicate 6 0 ++ [5, 6, 7] ++ List.range n ++ [eof32, 0])]

/-- The sample meets the hypotheses of `c38_memory_safe_partial`. -/
example : ∃ p, openPlot sampleFiles = .ok p ∧ Good p.buf ∧ derive p.cda.raw p.cda.ext = .ok p.cda ∧
    ∃ s, p.states[1]? = some s ∧ p.cda.istrn = some 0 ∧ p.cda.raw.nv1d < u64 ∧
    InFile p s p.ptrs.stSolid (toU64 p.cda.raw.nel8) p.cda.raw.nv3d ∧
    InFile p s p.ptrs.stBeam p.cda.raw.nel2 p.cda.raw.nv1d ∧
    InFile p s p.ptrs.stShell p.cda.raw.nel4 p.cda.raw.nv2d ∧
    InFile p s p.ptrs.stThick p.cda.raw.nelt p.cda.raw.nv3dt ∧
    solidWords p.cda = p.cda.raw.nv3d ∧ shellWords p.cda 0 = p.cda.raw.nv2d ∧
    thickWords p.cda 0 = p.cda.raw.nv3dt ∧ points p.cda = 3 ∧ beamWords p.cda = p.cda.raw.nv1d ∧
    p.cda.raw.nel4 ≠ 0 := by
  obtain ⟨p, h1, h2⟩ := Res.is_iff (r := openPlot sampleFiles) (f := fun p =>
    decide (p.buf.err = false ∧ 0 < p.buf.ws ∧ p.buf.ws ≤ 8 ∧ p.buf.bytes.length < 2 ^ 63) &&
    (p.buf.files.all fun f => f.length % p.buf.ws == 0) &&
    decide (derive p.cda.raw p.cda.ext = .ok p.cda) &&
    (match p.states[1]? with
     | none => false
     | some s => decide (p.cda.istrn = some 0 ∧ p.cda.raw.nv1d < u64 ∧
        (s + p.ptrs.stSolid < words p.buf ∧
          s + p.ptrs.stSolid + toU64 p.cda.raw.nel8 * p.cda.raw.nv3d ≤ words p.buf) ∧
        (s + p.ptrs.stBeam < words p.buf ∧ s + p.ptrs.stBeam + p.cda.raw.nel2 * p.cda.raw.nv1d ≤ words p.buf) ∧
        (s + p.ptrs.stShell < words p.buf ∧ s + p.ptrs.stShell + p.cda.raw.nel4 * p.cda.raw.nv2d ≤ words p.buf) ∧
        (s + p.ptrs.stThick < words p.buf ∧
          s + p.ptrs.stThick + p.cda.raw.nelt * p.cda.raw.nv3dt ≤ words p.buf))) &&
    decide (solidWords p.cda = p.cda.raw.nv3d ∧ shellWords p.cda 0 = p.cda.raw.nv2d ∧
      thickWords p.cda 0 = p.cda.raw.nv3dt ∧ points p.cda = 3 ∧ beamWords p.cda = p.cda.raw.nv1d ∧
      p.cda.raw.nel4 ≠ 0)) (by decide +kernel)
  simp only [Bool.and_eq_true, decide_eq_true_eq, List.all_eq_true, beq_iff_eq] at h2
  obtain ⟨⟨⟨⟨⟨a1, a2, a3, a4⟩, a5⟩, a6⟩, a7⟩, a8⟩ := h2
  cases hs : p.states[1]? with
  | none => rw [hs] at a7; cases a7
  | some s =>
    rw [hs] at a7
    simp only [decide_eq_true_eq] at a7
    obtain ⟨b1, b2, b3, b4, b5, b6⟩ := a7
    exact ⟨p, h1, ⟨a1, a2, a3, a4, fun f hf => Nat.dvd_of_mod_eq_zero (a5 f hf)⟩, a6, s, hs, b1, b2, b3, b4, b5,
      b6, a8⟩

/-- C38 is false if NV3D is less than what the flags require: one solid with NV3D = 3. Opening
accepts this; reading the solids reads behind the memory of the values. -/
theorem c38_solid_too_short : ∃ p,
    openPlot (elementFiles [(23, 1), (27, 3), (43, 1000), (44, 1000), (57, 0), (33, 1)] (List.replicate 9 1) 3) = .ok p ∧
    p.states.length = 1 ∧ readSolidsState p 0 = .ub := by
  obtain ⟨p, h1, h2⟩ := Res.is_iff (r := openPlot (elementFiles [(23, 1), (27, 3), (43, 1000), (44, 1000),
    (57, 0), (33, 1)] (List.replicate 9 1) 3)) (f := fun p => decide (
    p.states.length = 1 ∧ readSolidsState p 0 = .ub)) (by decide +kernel)
  exact ⟨p, h1, of_decide_eq_true h2⟩

/-- The hypotheses of `c38_solids_exact` are met by this file: seven values of its solid are used and
three are in the state. -/
theorem c38_solids_exact_example : ∃ p i s,
    openPlot (elementFiles [(23, 1), (27, 3), (43, 1000), (44, 1000), (57, 0), (33, 1)] (List.replicate 9 1) 3) = .ok p ∧
    p.states[0]? = some s ∧ p.cda.istrn = some i ∧ toU64 p.cda.raw.nel8 = 1 ∧ p.cda.raw.nv3d = 3 ∧
    InFile p s p.ptrs.stSolid 1 3 ∧ solidWords p.cda = 7 ∧ solidRead p.cda i = 7 := by
  obtain ⟨p, h1, h2⟩ := Res.is_iff (r := openPlot (elementFiles [(23, 1), (27, 3), (43, 1000), (44, 1000),
    (57, 0), (33, 1)] (List.replicate 9 1) 3)) (f := fun p =>
    match p.states[0]?, p.cda.istrn with
    | some s, some i => decide (toU64 p.cda.raw.nel8 = 1 ∧ p.cda.raw.nv3d = 3 ∧
      (s + p.ptrs.stSolid < words p.buf ∧ s + p.ptrs.stSolid + 1 * 3 ≤ words p.buf) ∧
      solidWords p.cda = 7 ∧ solidRead p.cda i = 7)
    | _, _ => false) (by decide +kernel)
  revert h2
  split
  · rename_i s i e1 e2
    intro h2
    have h3 := of_decide_eq_true h2
    exact ⟨p, i, s, h1, e1, e2, h3⟩
  · intro h2
    simp at h2

/-- C38 is false for a file with solids and neither shells nor thick shells (NV2D = 0, NELT = 0,
IDTDT < 100): ISTRN is never set, and reading the solids uses it. -/
theorem c38_strain_flag_unset : ∃ p,
    openPlot (elementFiles [(23, 1), (27, 7), (43, 1000), (44, 1000)] (List.replicate 9 1) 7) = .ok p ∧
    p.states.length = 1 ∧ p.cda.istrn = none ∧ readSolidsState p 0 = .ub := by
  obtain ⟨p, h1, h2⟩ := Res.is_iff (r := openPlot (elementFiles [(23, 1), (27, 7), (43, 1000), (44, 1000)]
    (List.replicate 9 1) 7)) (f := fun p => decide (
    p.states.length = 1 ∧ p.cda.istrn = none ∧ readSolidsState p 0 = .ub)) (by decide +kernel)
  exact ⟨p, h1, of_decide_eq_true h2⟩

/-- C38 is false for thick shells with four integration points and a history variable: all values
are in the file, but the memory for the history variables has only place for three points. -/
theorem c38_thick_heap_overflow : ∃ p,
    openPlot (elementFiles [(40, 1), (42, 32), (35, 1), (36, 4), (43, 1000), (44, 1000)]
      (List.replicate 9 1) 32) = .ok p ∧
    p.states.length = 1 ∧ thickWords p.cda 0 = p.cda.raw.nv3dt ∧ p.cda.istrn = some 0 ∧
    readThickState p 0 = .ub := by
  obtain ⟨p, h1, h2⟩ := Res.is_iff (r := openPlot (elementFiles [(40, 1), (42, 32), (35, 1), (36, 4),
    (43, 1000), (44, 1000)] (List.replicate 9 1) 32)) (f := fun p => decide (
    p.states.length = 1 ∧ thickWords p.cda 0 = p.cda.raw.nv3dt ∧ p.cda.istrn = some 0 ∧
    readThickState p 0 = .ub)) (by decide +kernel)
  exact ⟨p, h1, of_decide_eq_true h2⟩

/-- C38 is false for shells whose NV2D is two more than without strains: it is taken for a file with
twelve strains. -/
theorem c38_shell_strain_guess : ∃ p,
    openPlot (elementFiles [(31, 1), (33, 23), (36, 3), (43, 1000), (44, 1000)] (List.replicate 5 1) 23) = .ok p ∧
    p.states.length = 1 ∧ p.cda.istrn = some 1 ∧ readShellsState p 0 = .ub := by
  obtain ⟨p, h1, h2⟩ := Res.is_iff (r := openPlot (elementFiles [(31, 1), (33, 23), (36, 3), (43, 1000),
    (44, 1000)] (List.replicate 5 1) 23)) (f := fun p => decide (
    p.states.length = 1 ∧ p.cda.istrn = some 1 ∧ readShellsState p 0 = .ub)) (by decide +kernel)
  exact ⟨p, h1, of_decide_eq_true h2⟩

/-! ## C39 -/

/-- C39: if the values of the shells are in the files and their number is what the flags require,
then reading the shells returns one shell for every element, and integration point `k` of element
`e` is block `k` of the values of element `e`: the blocks 0, 1 and 2 are the mid, inner and outer
surface, the others the additional points in order. There are no other points. Behind the points
are forces, thickness and energy, and the strains. -/
theorem c39_shell_points {p : Plot} (g : Good p.buf) {state s i : Nat} (hs : p.states[state]? = some s)
    (hi : p.cda.istrn = some i) (hn : p.cda.raw.nel4 ≠ 0)
    (hin : InFile p s p.ptrs.stShell p.cda.raw.nel4 p.cda.raw.nv2d)
    (hw : shellWords p.cda i = p.cda.raw.nv2d) :
    ∃ l, readShellsState p state = .ok (p, some l) ∧ l.length = p.cda.raw.nel4 ∧
    ∀ (e : Nat) (sh : Shell), l[e]? = some sh →
      let data := valuesAt p s p.ptrs.stShell p.cda.raw.nel4 p.cda.raw.nv2d
      let block := fun k => surfaceAt p.cda data (e * p.cda.raw.nv2d + k * surfaceWords p.cda)
      (0 < points p.cda → sh.mid = some (block 0)) ∧ (1 < points p.cda → sh.inner = some (block 1)) ∧
      (2 < points p.cda → sh.outer = some (block 2)) ∧
      sh.add = (List.range (points p.cda - 3)).map (fun k => block (k + 3)) ∧
      (3 ≤ points p.cda → sh.numAdditional = sh.add.length) ∧
      sh.extra =
        sliceIf (p.cda.ioshl.2.2.1 ≠ 0) data (e * p.cda.raw.nv2d + points p.cda * surfaceWords p.cda) 8 ++
        sliceIf (p.cda.ioshl.2.2.2 ≠ 0) data (e * p.cda.raw.nv2d + points p.cda * surfaceWords p.cda +
          wordsIf (p.cda.ioshl.2.2.1 ≠ 0) 8) 4 ∧
      (i = 1 → sh.strains = some (slice data ((e + 1) * p.cda.raw.nv2d - 12) 12)) := by
  refine ⟨_, by rw [c38_shells_exact g hs hi hn hin, if_pos hw], by simp, ?_⟩
  intro e sh he
  have hp256 : points p.cda < 256 := by
    unfold points
    omega
  obtain ⟨he1, he2⟩ := List.getElem?_eq_some_iff.1 he
  simp only [List.length_map, List.length_range] at he1
  simp only [List.getElem_map, List.getElem_range] at he2
  subst he2
  generalize valuesAt p s p.ptrs.stShell p.cda.raw.nel4 p.cda.raw.nv2d = data
  have hf := fill_point p.cda data (points p.cda) (o := e * p.cda.raw.nv2d) filled_empty
  have hadd := hf.1.add
  simp only [Nat.zero_add] at hadd
  have hpt := hf.2
  simp only [Nat.not_lt_zero, if_false, Nat.zero_add, Nat.sub_zero] at hpt
  refine ⟨?_, ?_, ?_, ?_, ?_, rfl, ?_⟩
  · intro h
    exact (hpt 0).trans (if_pos h)
  · intro h
    exact (hpt 1).trans (if_pos h)
  · intro h
    exact (hpt 2).trans (if_pos h)
  · show (fill p.cda data (e * p.cda.raw.nv2d) (points p.cda) 0 {}).add = _
    apply List.ext_getElem?
    intro k
    have h3 : (fill p.cda data (e * p.cda.raw.nv2d) (points p.cda) 0 {}).add[k]? = _ := hpt (k + 3)
    rw [h3]
    by_cases hk : k < points p.cda - 3
    · rw [if_pos (by omega)]
      simp [hk]
    · rw [if_neg (by omega), List.getElem?_eq_none (by simpa using hk)]
  · intro h
    show (points p.cda + 253) % 256 = (fill p.cda data (e * p.cda.raw.nv2d) (points p.cda) 0 {}).add.length
    rw [hadd]
    omega
  · intro h
    show (if i = 0 ∨ i = 1 then _ else _) = _
    rw [if_pos (.inr h)]
    subst h
    simp only [decide_true]
    unfold sliceIf
    rw [if_pos rfl]
    have hw' := hw
    unfold shellWords at hw'
    have h12 : wordsIf (decide ((1 : Nat) = 1)) 12 = 12 := by simp [wordsIf]
    rw [h12] at hw'
    congr 2
    rw [Nat.succ_mul]
    omega

/-- C39 for thick shells: the strains are between the points 2 and 3. -/
theorem c39_thick_points {p : Plot} (g : Good p.buf) {state s i : Nat} (hs : p.states[state]? = some s)
    (hi : p.cda.istrn = some i) (hn : p.cda.raw.nelt ≠ 0)
    (hin : InFile p s p.ptrs.stThick p.cda.raw.nelt p.cda.raw.nv3dt)
    (hw : thickWords p.cda i = p.cda.raw.nv3dt) (hh : p.cda.raw.neips = 0 ∨ points p.cda ≤ 3) :
    ∃ l, readThickState p state = .ok (p, some l) ∧ l.length = p.cda.raw.nelt ∧
    ∀ (e : Nat) (sh : Shell), l[e]? = some sh →
      let data := valuesAt p s p.ptrs.stThick p.cda.raw.nelt p.cda.raw.nv3dt
      let block := fun k => surfaceAt p.cda data
        (e * p.cda.raw.nv3dt + k * surfaceWords p.cda + wordsIf (i = 1 ∧ 3 ≤ k) 12)
      (0 < points p.cda → sh.mid = some (block 0)) ∧ (1 < points p.cda → sh.inner = some (block 1)) ∧
      (2 < points p.cda → sh.outer = some (block 2)) ∧
      sh.add = (List.range (points p.cda - 3)).map (fun k => block (k + 3)) ∧
      (3 ≤ points p.cda → sh.numAdditional = sh.add.length) ∧
      (3 ≤ points p.cda → sh.strains =
        some (sliceIf (i = 1) data (e * p.cda.raw.nv3dt + 3 * surfaceWords p.cda) 12)) := by
  refine ⟨_, by rw [c38_thick_exact g hs hi hn hin hh, if_pos hw], by simp, ?_⟩
  intro e sh he
  have hp256 : points p.cda < 256 := by
    unfold points
    omega
  obtain ⟨he1, he2⟩ := List.getElem?_eq_some_iff.1 he
  simp only [List.length_map, List.length_range] at he1
  simp only [List.getElem_map, List.getElem_range] at he2
  subst he2
  generalize valuesAt p s p.ptrs.stThick p.cda.raw.nelt p.cda.raw.nv3dt = data
  have hf := fillThick_point p.cda i data (points p.cda) (o := e * p.cda.raw.nv3dt) filled_empty
  obtain ⟨hpt, hadd, hstr⟩ := hf
  simp only [Nat.not_lt_zero, if_false, Nat.zero_add, Nat.sub_zero, Nat.zero_le, true_and] at hpt hadd hstr
  refine ⟨?_, ?_, ?_, ?_, ?_, ?_⟩
  · intro h
    exact (hpt 0).trans (if_pos h)
  · intro h
    exact (hpt 1).trans (if_pos h)
  · intro h
    exact (hpt 2).trans (if_pos h)
  · show (fillThick p.cda i data (e * p.cda.raw.nv3dt) (points p.cda) 0 {}).add = _
    apply List.ext_getElem?
    intro k
    have h3 : (fillThick p.cda i data (e * p.cda.raw.nv3dt) (points p.cda) 0 {}).add[k]? = _ := hpt (k + 3)
    rw [h3]
    by_cases hk : k < points p.cda - 3
    · rw [if_pos (by omega)]
      simp [hk]
    · rw [if_neg (by omega), List.getElem?_eq_none (by simpa using hk)]
  · intro h
    show (points p.cda + 253) % 256 =
      (fillThick p.cda i data (e * p.cda.raw.nv3dt) (points p.cda) 0 {}).add.length
    rw [hadd]
    omega
  · intro h
    exact hstr.trans (if_pos (by omega))

/-- A mean over the points of a decoded shell with at least three points uses exactly its points. -/
theorem c39_mean_points {sh : Shell} {a b d : Surface} (h0 : sh.mid = some a) (h1 : sh.inner = some b)
    (h2 : sh.outer = some d) (hn : sh.numAdditional = sh.add.length) :
    meanPoints sh = .ok (a :: b :: d :: sh.add) := by
  unfold meanPoints
  have hm : ∀ (l : List Surface) (pre : Nat) (f : Nat → Option Surface), (∀ k, f (pre + k) = l[k]?) →
      ((List.range l.length).map (pre + ·)).mapM f = some l := by
    intro l
    induction l with
    | nil => intro pre f _; rfl
    | cons x xs ih =>
      intro pre f hf
      have e0 := hf 0
      simp only [Nat.add_zero, List.getElem?_cons_zero] at e0
      have := ih (pre + 1) f (fun k => by
        rw [show pre + 1 + k = pre + (k + 1) by omega, hf]
        rfl)
      rw [List.length_cons, List.range_succ_eq_map, List.map_cons, List.map_map, List.mapM_cons, Nat.add_zero, e0]
      have hc : ((fun x => pre + x) ∘ Nat.succ) = fun k => pre + 1 + k := by
        funext k
        simp only [Function.comp_apply]
        omega
      rw [hc, this]
      rfl
  have := hm (a :: b :: d :: sh.add) 0 sh.point (fun k => by
    match k with
    | 0 => exact h0
    | 1 => exact h1
    | 2 => exact h2
    | k + 3 => rw [Nat.zero_add]; rfl)
  simp only [List.length_cons, Nat.zero_add, List.map_id'] at this
  rw [hn, show 3 + sh.add.length = sh.add.length + 1 + 1 + 1 by omega, this]

/-- With less than three integration points `num_additional_integration_points` wraps around, and
the mean of a shell of an accepted file reads points that do not exist. -/
theorem c39_mean_of_two_points : ∃ p,
    openPlot (elementFiles [(31, 1), (33, 14), (36, 2), (43, 1000), (44, 1000)] (List.replicate 5 1) 14) = .ok p ∧
    ∃ sh, readShellsState p 0 = .ok (p, some [sh]) ∧ sh.numAdditional = 255 ∧ meanPoints sh = .ub := by
  obtain ⟨p, h1, h2⟩ := Res.is_iff (r := openPlot (elementFiles [(31, 1), (33, 14), (36, 2), (43, 1000),
    (44, 1000)] (List.replicate 5 1) 14)) (f := fun p =>
    match readShellsState p 0 with
    | .ok (q, some [sh]) => decide (q = p ∧ sh.numAdditional = 255 ∧ meanPoints sh = .ub)
    | _ => false) (by decide +kernel)
  refine ⟨p, h1, ?_⟩
  split at h2
  · rename_i q sh h
    obtain ⟨rfl, b, c⟩ := of_decide_eq_true h2
    exact ⟨sh, h, b, c⟩
  · cases h2

/-- Two shells with four integration points and one history variable: point 3 of shell 1. -/
example : ∃ p,
    openPlot (elementFiles [(31, 2), (33, 32), (35, 1), (36, 4), (43, 1000), (44, 1000)] (List.replicate 10 1) 64) =
      .ok p ∧ ∃ a b, readShellsState p 0 = .ok (p, some [a, b]) ∧
    b.point 3 = some ⟨[56, 57, 58, 59, 60, 61], [62], [63]⟩ := by
  obtain ⟨p, h1, h2⟩ := Res.is_iff (r := openPlot (elementFiles [(31, 2), (33, 32), (35, 1), (36, 4), (43, 1000),
    (44, 1000)] (List.replicate 10 1) 64)) (f := fun p =>
    match readShellsState p 0 with
    | .ok (q, some [_, b]) => decide (q = p ∧ b.point 3 = some ⟨[56, 57, 58, 59, 60, 61], [62], [63]⟩)
    | _ => false) (by decide +kernel)
  refine ⟨p, h1, ?_⟩
  split at h2
  · rename_i q a b h
    obtain ⟨rfl, hb⟩ := of_decide_eq_true h2
    exact ⟨a, b, h, hb⟩
  · cases h2

end Dyna.D3
