import Verif.D3Float
import Verif.Props.D3Calls
import Verif.Props.D3RoundTrip
import Verif.Props.D3RoundTripValues
/-!
# C108: the functions for `double` and for `float` return the same numbers
-/

namespace Dyna.D3

/-! ## The loops -/

/-- The cells after `i` assignments. Auxiliary of the proof, models no code. -/
def cells (f : Nat → Nat) (src : List Nat) (i : Nat) : List (Option Nat) :=
  (src.take i).map (fun x => some (f x)) ++ List.replicate (src.length - i) none

theorem cells_length (f : Nat → Nat) (src : List Nat) {i : Nat} (h : i ≤ src.length) :
    (cells f src i).length = src.length := by
  unfold cells
  simp only [List.length_append, List.length_map, List.length_take, List.length_replicate]
  omega

theorem putAt_cells {f : Nat → Nat} {src : List Nat} {i : Nat} (h : i < src.length) :
    putAt f src i (cells f src i) i = .ok (cells f src (i + 1)) := by
  unfold putAt
  rw [List.getElem?_eq_getElem h]
  simp only
  rw [if_pos (by rw [cells_length f src (by omega)]; exact h)]
  congr 1
  apply List.ext_getElem?
  intro k
  unfold cells
  rw [List.getElem?_set]
  have hl : ((src.take i).map (fun x => some (f x))).length = i := by
    simp only [List.length_map, List.length_take]; omega
  have hl' : ((src.take (i + 1)).map (fun x => some (f x))).length = i + 1 := by
    simp only [List.length_map, List.length_take]; omega
  by_cases hk : i = k
  · subst hk
    rw [if_pos rfl, if_pos (by simp only [List.length_append, hl, List.length_replicate]; omega),
      List.getElem?_append_left (by omega), List.getElem?_map, List.getElem?_take, if_pos (by omega),
      List.getElem?_eq_getElem h]
    rfl
  · rw [if_neg hk]
    by_cases hlt : k < i
    · rw [List.getElem?_append_left (by omega), List.getElem?_append_left (by omega), List.getElem?_map,
        List.getElem?_map, List.getElem?_take, List.getElem?_take, if_pos hlt, if_pos (by omega)]
    · rw [List.getElem?_append_right (by omega), List.getElem?_append_right (by omega), hl, hl',
        List.getElem?_replicate, List.getElem?_replicate]
      by_cases hb : k - i < src.length - i
      · rw [if_pos hb, if_pos (by omega)]
      · rw [if_neg hb, if_neg (by omega)]

theorem putThree_cells {f : Nat → Nat} {src : List Nat} {i : Nat} (h : i + 2 < src.length) :
    putThree f src i (cells f src i) = .ok (cells f src (i + 3)) := by
  unfold putThree
  rw [Nat.add_zero, putAt_cells (by omega)]
  show (putAt f src (i + 1) (cells f src (i + 1)) (i + 1)).bind _ = _
  rw [putAt_cells (by omega)]
  exact putAt_cells h

theorem cells_all (f : Nat → Nat) (src : List Nat) : cells f src src.length = src.map fun x => some (f x) := by
  unfold cells
  rw [List.take_length, Nat.sub_self]
  simp

theorem convertByThree_cells {f : Nat → Nat} {src : List Nat} : ∀ (k i : Nat), src.length = i + 3 * k →
    convertByThree f src src.length i (cells f src i) = .ok (src.map fun x => some (f x)) := by
  intro k
  induction k with
  | zero =>
    intro i h
    have : i = src.length := by omega
    subst this
    unfold convertByThree
    rw [if_neg (by omega), cells_all]
  | succ k ih =>
    intro i h
    unfold convertByThree
    rw [if_pos (by omega), putThree_cells (by omega)]
    exact ih (i + 3) (by omega)

theorem convertNodes_cells {f : Nat → Nat} {src : List Nat} {n : Nat} (h : src.length = n * 3) : ∀ (k i : Nat), n = i + k →
    convertNodes f src n i (cells f src (i * 3)) = .ok (src.map fun x => some (f x)) := by
  intro k
  induction k with
  | zero =>
    intro i hk
    have : i = n := by omega
    subst this
    unfold convertNodes
    rw [if_neg (by omega), ← h, cells_all]
  | succ k ih =>
    intro i hk
    unfold convertNodes
    rw [if_pos (by omega), putThree_cells (by omega), show i * 3 + 3 = (i + 1) * 3 by omega]
    exact ih (i + 1) (by omega)

theorem fresh_cells (f : Nat → Nat) {src : List Nat} {n w : Nat} (hw : 0 < w) (h : src.length = n) (hs : n * w < u64) :
    fresh (n * w) w = cells f src 0 := by
  unfold fresh cells
  rw [Nat.mod_eq_of_lt hs, Nat.mul_div_cancel _ hw, h]
  simp

/-! ## Lengths -/

theorem toWords_len (ws : Nat) : ∀ (n : Nat) (l : Bytes), (toWords ws n l).length = n := by
  intro n
  induction n with
  | zero => intro l; rfl
  | succ n ih => intro l; simp only [toWords, List.length_cons, ih]

theorem readAt_len {p p' : Plot} {n k : Nat} {l : List Nat} (h : readAt p n k = .ok (p', some l)) : l.length = n % u64 := by
  unfold readAt at h
  split at h
  · split at h
    · split at h
      · cases h
      · cases h
        exact toWords_len _ _ _
    all_goals cases h
  all_goals cases h

theorem readEach_len (n ptr : Nat) : ∀ (l : List Nat) (p p' : Plot) (r : List Nat), readEach n ptr l p = .ok (p', some r) →
    r.length = l.length * (n % u64) := by
  intro l
  induction l with
  | nil =>
    intro p p' r h
    cases h
    simp
  | cons s rest ih =>
    intro p p' r h
    unfold readEach at h
    cases hr : readAt p n (s + ptr) with
    | err | ub | abort => rw [hr] at h; cases h
    | ok x =>
      obtain ⟨p1, o⟩ := x
      rw [hr] at h
      cases o with
      | none => cases h
      | some a =>
        simp only at h
        cases he : readEach n ptr rest p1 with
        | err | ub | abort => rw [he] at h; cases h
        | ok y =>
          obtain ⟨p2, o⟩ := y
          rw [he] at h
          cases o with
          | none => cases h
          | some b =>
            cases h
            rw [List.length_append, readAt_len hr, ih _ _ _ he, List.length_cons, Nat.succ_mul]
            omega

theorem readEach_frame {n ptr : Nat} : ∀ {l : List Nat} {p p' : Plot} {r : Option (List Nat)}, readEach n ptr l p = .ok (p', r) →
    p'.states = p.states ∧ p'.ptrs = p.ptrs ∧ p'.cda = p.cda := by
  intro l
  induction l with
  | nil =>
    intro p p' r h
    cases h
    exact ⟨rfl, rfl, rfl⟩
  | cons s rest ih =>
    intro p p' r h
    unfold readEach at h
    cases hr : readAt p n (s + ptr) with
    | err | ub | abort => rw [hr] at h; cases h
    | ok x =>
      obtain ⟨p1, o⟩ := x
      rw [hr] at h
      have hf := readAt_frame hr
      cases o with
      | none => cases h; exact hf
      | some a =>
        simp only at h
        cases he : readEach n ptr rest p1 with
        | err | ub | abort => rw [he] at h; cases h
        | ok y =>
          obtain ⟨p2, o⟩ := y
          rw [he] at h
          have := ih he
          rw [hf.1, hf.2.1, hf.2.2] at this
          cases o <;> (cases h; exact this)

/-! ## What the calls return -/

/-- Specification: numbers of a file with words of `ws` bytes as numbers of `w` bytes: they are converted if the sizes differ. -/
def numbersAs (c : Conv) (ws w : Nat) (l : List Nat) : List (Option Nat) :=
  l.map fun x => some (if ws = w then x else if w = 8 then c.widen x else c.narrow x)

/-- Specification: the result of a call with all its numbers converted. Errors stay the same. -/
def resultAs (c : Conv) (ws w : Nat) (r : Call (List Nat)) : Call (List (Option Nat)) :=
  r.bind fun x => .ok (x.1, x.2.map (numbersAs c ws w))

theorem asRead_as {c : Conv} {ws w : Nat} (h : ws = w) (r : Call (List Nat)) : asRead r = resultAs c ws w r := by
  unfold asRead resultAs numbersAs
  simp only [if_pos h]

theorem size_cases {ws w : Nat} (hws : ws = 4 ∨ ws = 8) (hw : w = 4 ∨ w = 8) : (ws = otherSize w ∧ ws ≠ w) ∨ (ws ≠ otherSize w ∧ ws = w) := by
  unfold otherSize
  rcases hws with rfl | rfl <;> rcases hw with rfl | rfl <;> simp

theorem converted_as {c : Conv} {ws w : Nat} (hne : ws ≠ w) {r : Call (List Nat)} {conv : Plot → List Nat → Res (List (Option Nat))}
    (h : ∀ p' l, r = .ok (p', some l) → conv p' l = .ok (l.map fun x => some (c.to w x))) :
    converted r conv = resultAs c ws w r := by
  cases r with
  | err | ub | abort => rfl
  | ok x =>
    obtain ⟨p', o⟩ := x
    cases o with
    | none => rfl
    | some l =>
      unfold converted resultAs
      show (conv p' l).bind _ = _
      rw [h p' l rfl]
      show Res.ok (p', some (l.map fun x => some (c.to w x))) = Res.ok (p', some (numbersAs c ws w l))
      unfold numbersAs Conv.to
      simp only [if_neg hne]
      congr 3
      apply List.map_congr_left
      intro a _
      split <;> rfl

theorem readNodeData_frame {p p' : Plot} {ptr state : Nat} {l : List Nat} (h : readNodeData p ptr state = .ok (p', some l)) :
    p'.cda = p.cda ∧ l.length = p.cda.raw.numnp * 3 % u64 := by
  unfold readNodeData at h
  split at h
  · cases h
  · split at h
    · cases h
    · exact ⟨(readAt_frame h).2.2, readAt_len h⟩

/-- C108, nodes of one state: whatever the file is, if the size of the data fits into memory then the function for numbers of `w` bytes
does what reading the words of the file does, with every number converted and no cell without value. -/
theorem c108_node_data (c : Conv) {w : Nat} (hw : w = 4 ∨ w = 8) {p : Plot} (hws : p.buf.ws = 4 ∨ p.buf.ws = 8)
    (hs : p.cda.raw.numnp * 3 * 8 < u64) (state : Nat) :
    coordinatesAs c w p state = resultAs c p.buf.ws w (readCoordinates p state) ∧
    velocityAs c w p state = resultAs c p.buf.ws w (readVelocity p state) ∧
    accelerationAs c w p state = resultAs c p.buf.ws w (readAcceleration p state) := by
  have main : ∀ ptr, nodeDataAs c w p ptr state = resultAs c p.buf.ws w (readNodeData p ptr state) := by
    intro ptr
    unfold nodeDataAs
    by_cases h0 : ptr = 0
    · rw [if_pos h0]
      unfold readNodeData
      rw [if_pos h0]
      rfl
    · rw [if_neg h0]
      rcases size_cases hws hw with ⟨h1, h2⟩ | ⟨h1, h2⟩
      · rw [if_pos h1]
        refine converted_as h2 ?_
        intro p' l hr
        obtain ⟨hc, hl⟩ := readNodeData_frame hr
        have hb : p.cda.raw.numnp * 3 * w < u64 := by rcases hw with rfl | rfl <;> omega
        have hl3 : l.length = p.cda.raw.numnp * 3 := by rw [hl, Nat.mod_eq_of_lt (by omega)]
        rw [hc, fresh_cells (c.to w) (by rcases hw with rfl | rfl <;> decide) hl3 hb]
        exact convertNodes_cells hl3 p.cda.raw.numnp 0 (by omega)
      · rw [if_neg h1]
        exact asRead_as h2 _
  exact ⟨main _, main _, main _⟩

theorem readAllNodeData_frame {p p' : Plot} {ptr : Nat} {l : List Nat} (h : readAllNodeData p ptr = .ok (p', some l)) :
    p'.cda = p.cda ∧ p'.states = p.states ∧ l.length = p.states.length * (p.cda.raw.numnp * 3 % u64) :=
  ⟨(readEach_frame h).2.2, (readEach_frame h).1, readEach_len _ _ _ _ _ _ h⟩

/-- C108, nodes of all states. -/
theorem c108_all_node_data (c : Conv) {w : Nat} (hw : w = 4 ∨ w = 8) {p : Plot} (hws : p.buf.ws = 4 ∨ p.buf.ws = 8)
    (h1s : p.cda.raw.numnp * 3 < u64) (hs : p.cda.raw.numnp * p.states.length * 3 * 8 < u64) :
    allCoordinatesAs c w p = resultAs c p.buf.ws w (readAllCoordinates p) ∧
    allVelocityAs c w p = resultAs c p.buf.ws w (readAllVelocity p) ∧
    allAccelerationAs c w p = resultAs c p.buf.ws w (readAllAcceleration p) := by
  have main : ∀ ptr, allNodeDataAs c w p ptr = resultAs c p.buf.ws w (readAllNodeData p ptr) := by
    intro ptr
    unfold allNodeDataAs
    rcases size_cases hws hw with ⟨h1, h2⟩ | ⟨h1, h2⟩
    · rw [if_pos h1]
      refine converted_as h2 ?_
      intro p' l hr
      obtain ⟨hc, hst, hl⟩ := readAllNodeData_frame hr
      rw [Nat.mod_eq_of_lt h1s] at hl
      have e : p.states.length * (p.cda.raw.numnp * 3) = p.cda.raw.numnp * p.states.length * 3 := by
        rw [Nat.mul_comm, Nat.mul_assoc, Nat.mul_assoc, Nat.mul_comm 3]
      rw [e] at hl
      generalize hn : p.cda.raw.numnp * p.states.length * 3 = n at hs hl
      have hb : n * w < u64 := by rcases hw with rfl | rfl <;> omega
      simp only [hc, hst, hn]
      rw [Nat.mod_eq_of_lt (by omega), fresh_cells (c.to w) (by rcases hw with rfl | rfl <;> decide) hl hb, ← hl]
      exact convertByThree_cells (p.cda.raw.numnp * p.states.length) 0 (by omega)
    · rw [if_neg h1]
      exact asRead_as h2 _
  exact ⟨main _, main _, main _⟩

/-! ## The time -/

theorem timesLoop_as {c : Conv} {w ptr : Nat} : ∀ (l : List Nat) (i : Nat) (before : List (Option Nat)) (p : Plot), before.length = i →
    timesLoop (c.to w) ptr l i (before ++ List.replicate l.length none) p =
      (readEach 1 ptr l p).bind fun x => .ok (x.1, x.2.map fun l => before ++ l.map fun x => some (c.to w x)) := by
  intro l
  induction l with
  | nil =>
    intro i before p h
    rfl
  | cons s rest ih =>
    intro i before p h
    unfold timesLoop readEach
    cases hr : readAt p 1 (s + ptr) with
    | err | ub | abort => rfl
    | ok x =>
      obtain ⟨p1, o⟩ := x
      cases o with
      | none => rfl
      | some a =>
        have hl : a.length = 1 := readAt_len hr
        obtain ⟨v, rfl⟩ : ∃ v, a = [v] := by
          match a, hl with
          | [v], _ => exact ⟨v, rfl⟩
        show (putAt (c.to w) [v] 0 (before ++ List.replicate (rest.length + 1) none) i).bind _ = _
        unfold putAt
        simp only [List.getElem?_cons_zero]
        rw [if_pos (by simp only [List.length_append, List.length_replicate]; omega)]
        show timesLoop (c.to w) ptr rest (i + 1) ((before ++ List.replicate (rest.length + 1) none).set i _) p1 = _
        have : (before ++ List.replicate (rest.length + 1) none).set i (some (c.to w v)) =
            (before ++ [some (c.to w v)]) ++ List.replicate rest.length none := by
          subst h
          rw [List.set_append_right _ _ (Nat.le_refl _), Nat.sub_self, List.replicate_succ]
          simp
        rw [this, ih (i + 1) _ p1 (by simp only [List.length_append, List.length_singleton]; omega)]
        cases readEach 1 ptr rest p1 with
        | err | ub | abort => rfl
        | ok y =>
          obtain ⟨p2, o⟩ := y
          cases o with
          | none => rfl
          | some b =>
            show Res.ok (p2, some _) = Res.ok (p2, some _)
            simp

/-- C108, the time of one state and of all states. -/
theorem c108_times (c : Conv) {w : Nat} (hw : w = 4 ∨ w = 8) {p : Plot} (hws : p.buf.ws = 4 ∨ p.buf.ws = 8)
    (hs : p.states.length * 8 < u64) (state : Nat) :
    timeAs c w p state = resultAs c p.buf.ws w (readTime p state) ∧
    allTimesAs c w p = resultAs c p.buf.ws w (readAllTime p) := by
  unfold timeAs allTimesAs
  rcases size_cases hws hw with ⟨h1, h2⟩ | ⟨h1, h2⟩
  · rw [if_pos h1, if_pos h1]
    constructor
    · refine converted_as h2 ?_
      intro p' l hr
      have hl : l.length = 1 := by
        unfold readTime at hr
        split at hr
        · cases hr
        · exact readAt_len hr
      match l, hl with
      | [v], _ => rfl
    · have hb : p.states.length * w < u64 := by rcases hw with rfl | rfl <;> omega
      unfold fresh
      rw [Nat.mod_eq_of_lt hb, Nat.mul_div_cancel _ (by omega)]
      have := timesLoop_as (c := c) (w := w) (ptr := p.ptrs.stTime) p.states 0 [] p rfl
      rw [List.nil_append] at this
      rw [this]
      unfold readAllTime resultAs numbersAs Conv.to
      simp only [if_neg h2, List.nil_append]
      congr 1
      funext x
      congr 3
      funext l
      apply List.map_congr_left
      intro a _
      split <;> rfl
  · rw [if_neg h1, if_neg h1]
    exact ⟨asRead_as h2 _, asRead_as h2 _⟩

/-! ## A database that has been written -/

theorem eachState_all {α : Type} {f : Plot → Nat → Call (List Nat)} {g : α → List Nat} {p : Plot} : ∀ (l : List α) (i : Nat),
    (∀ k s, l[k]? = some s → f p (i + k) = .ok (p, some (g s))) → eachState f l.length i p = .ok (p, some (l.flatMap g)) := by
  intro l
  induction l with
  | nil => intro i _; rfl
  | cons a rest ih =>
    intro i h
    have h0 := h 0 a rfl
    rw [Nat.add_zero] at h0
    have hr := ih (i + 1) (fun k s hk => by
      have := h (k + 1) s (by rw [List.getElem?_cons_succ]; exact hk)
      rw [show i + (k + 1) = i + 1 + k by omega] at this
      exact this)
    simp only [List.length_cons, eachState, h0, hr, Res.bind, List.flatMap_cons]

theorem flatten_index {α : Type} : ∀ (files : List (List α)) (i : Nat) (s : α), files.flatten[i]? = some s →
    ∃ j r f, files[j]? = some f ∧ f[r]? = some s ∧ i = ((files.map List.length).take j).sum + r := by
  intro files
  induction files with
  | nil => intro i s h; simp at h
  | cons a rest ih =>
    intro i s h
    rw [List.flatten_cons] at h
    by_cases hi : i < a.length
    · rw [List.getElem?_append_left hi] at h
      exact ⟨0, i, a, rfl, h, by simp⟩
    · rw [List.getElem?_append_right (by omega)] at h
      obtain ⟨j, r, f, h1, h2, h3⟩ := ih _ _ h
      refine ⟨j + 1, r, f, by rw [List.getElem?_cons_succ]; exact h1, h2, ?_⟩
      simp only [List.map_cons, List.take_succ_cons, List.sum_cons]
      omega

theorem steps_bytes (ws k : Nat) : ∀ (files : List (List Step)), (∀ f ∈ files, ∀ s ∈ f, k ≤ s.words.length) →
    files.flatten.length * k * ws ≤ ((files.map (stepsWords ws)).map (packWords ws)).flatten.length := by
  have one : ∀ (f : List Step), (∀ s ∈ f, k ≤ s.words.length) → f.length * k ≤ (f.flatMap Step.words).length := by
    intro f
    induction f with
    | nil => intro _; simp
    | cons a rest ih =>
      intro h
      have h1 := h a List.mem_cons_self
      have h2 := ih fun s hs => h s (List.mem_cons_of_mem _ hs)
      rw [List.flatMap_cons, List.length_append, List.length_cons, Nat.succ_mul]
      omega
  intro files
  induction files with
  | nil => intro _; simp
  | cons f rest ih =>
    intro h
    have h1 := one f (h f List.mem_cons_self)
    have h2 := ih fun g hg => h g (List.mem_cons_of_mem _ hg)
    simp only [List.map_cons, List.flatten_cons, List.length_append]
    rw [pack_length, Nat.add_mul, Nat.add_mul]
    unfold stepsWords at h2 ⊢
    rw [List.length_append]
    have h3 : f.length * k * ws ≤ ((f.flatMap Step.words).length + [eofWord ws].length) * ws :=
      Nat.mul_le_mul_right _ (by omega)
    omega

theorem none_all (c : Conv) (w : Nat) {p : Plot} {ptr : Nat} {files : List (List Step)} (hlen : p.states.length = files.flatten.length)
    (h0 : files.flatten = []) : allNodeDataAs c w p ptr = .ok (p, some []) := by
  have hs : p.states = [] := List.length_eq_zero_iff.mp (by rw [hlen, h0]; rfl)
  unfold allNodeDataAs readAllNodeData converted asRead
  rw [hs]
  simp only [readEach, List.length_nil, Nat.mul_zero, Nat.zero_mul, Nat.zero_mod, Res.bind, hs]
  unfold convertByThree
  split <;> simp [fresh]

/-- C108 for a database that has been written: whatever the size of its words is, the functions for `double` and those for `float` return of
every state the time and the data of the nodes that have been written, converted if the sizes differ, and the functions for all states
return them one state after the other. -/
theorem c108_written (c : Conv) {w : Nat} (hw : w = 4 ∨ w = 8) {d : Db} (ok : d.Ok) : ∃ plot, openPlot d.write = .ok plot ∧
    plot.states.length = d.files.flatten.length ∧
    (∀ (i : Nat) (s : Step), d.files.flatten[i]? = some s →
      timeAs c w plot i = .ok (plot, some (numbersAs c d.ws w [s.time])) ∧
      (d.hasCoords = true → coordinatesAs c w plot i = .ok (plot, some (numbersAs c d.ws w s.coords))) ∧
      (d.hasVelocity = true → velocityAs c w plot i = .ok (plot, some (numbersAs c d.ws w s.velocity))) ∧
      (d.hasAcceleration = true → accelerationAs c w plot i = .ok (plot, some (numbersAs c d.ws w s.acceleration)))) ∧
    allTimesAs c w plot = .ok (plot, some (numbersAs c d.ws w (d.files.flatten.map Step.time))) ∧
    (d.hasCoords = true →
      allCoordinatesAs c w plot = .ok (plot, some (numbersAs c d.ws w (d.files.flatten.flatMap Step.coords)))) ∧
    (d.hasVelocity = true →
      allVelocityAs c w plot = .ok (plot, some (numbersAs c d.ws w (d.files.flatten.flatMap Step.velocity)))) ∧
    (d.hasAcceleration = true →
      allAccelerationAs c w plot = .ok (plot, some (numbersAs c d.ws w (d.files.flatten.flatMap Step.acceleration)))) := by
  obtain ⟨p0, st0, ho', -⟩ := db_plot ok
  obtain ⟨plot, ho, hn, -, -, -, -, -, -, -, -, -, -, -, -, hs⟩ := c105_round_trip ok
  have he : plot = ⟨d.cda, d.numrbs, p0, st0, d.buf⟩ := by
    rw [ho] at ho'
    exact (Res.ok.injEq _ _).mp ho'
  have hws : plot.buf.ws = d.ws := by rw [he]; rfl
  have hwo : plot.buf.ws = 4 ∨ plot.buf.ws = 8 := by rw [hws]; exact ok.ws
  have hnum : plot.cda.raw.numnp = d.nodes.length := by rw [he]; rfl
  have hlen : plot.states.length = d.files.flatten.length := by rw [hn, List.length_flatten]
  have step : ∀ (i : Nat) (s : Step), d.files.flatten[i]? = some s → readTime plot i = .ok (plot, some [s.time]) ∧
      (d.hasCoords = true → readCoordinates plot i = .ok (plot, some s.coords)) ∧
      (d.hasVelocity = true → readVelocity plot i = .ok (plot, some s.velocity)) ∧
      (d.hasAcceleration = true → readAcceleration plot i = .ok (plot, some s.acceleration)) := by
    intro i s hi
    obtain ⟨j, r, f, h1, h2, h3⟩ := flatten_index _ _ _ hi
    have := hs j r f s h1 h2
    rw [← h3] at this
    exact this
  have stepOk : ∀ (i : Nat) (s : Step), d.files.flatten[i]? = some s → StepOk d s := by
    intro i s hi
    obtain ⟨f, hf, hm⟩ := List.mem_flatten.mp (List.mem_of_getElem? hi)
    exact ok.steps f hf s hm
  have hlw : ∀ s : Step, s.words.length = 1 + s.globals.length + s.coords.length + s.velocity.length + s.acceleration.length +
      (s.solids.flatten ++ (s.beams.flatten ++ (s.shells.flatten ++ (s.thicks.flatten ++ s.deleted)))).length := by
    intro s
    unfold Step.words
    simp only [List.length_cons, List.length_append]
    omega
  have hsize : ∀ k, (∀ f ∈ d.files, ∀ s ∈ f, k ≤ s.words.length) → d.files.flatten.length * k * d.ws < 2 ^ 63 := by
    intro k hk
    have h1 := steps_bytes d.ws k d.files hk
    have h2 := ok.size
    unfold Db.write at h2
    rw [List.map_cons, List.flatten_cons, List.length_append] at h2
    omega
  have u : u64 = 2 ^ 64 := rfl
  have ht8 : plot.states.length * 8 < u64 := by
    have h1 := hsize 1 (fun f _ s _ => by rw [hlw]; omega)
    rw [hlen, u]
    rcases ok.ws with h | h <;> rw [h] at h1 <;> omega
  have hnode : ∀ (sel : Step → List Nat), (∀ s, StepOk d s → (sel s).length = 3 * d.nodes.length) →
      (∀ s : Step, (sel s).length ≤ s.words.length) → d.files.flatten ≠ [] →
      plot.cda.raw.numnp * 3 < u64 ∧ plot.cda.raw.numnp * 3 * 8 < u64 ∧ plot.cda.raw.numnp * plot.states.length * 3 * 8 < u64 := by
    intro sel hsel hle hne
    have h1 := hsize (3 * d.nodes.length) (fun f hf s hs => by rw [← hsel s (ok.steps f hf s hs)]; exact hle s)
    have e : d.files.flatten.length * (3 * d.nodes.length) = d.nodes.length * d.files.flatten.length * 3 := by
      rw [Nat.mul_comm, Nat.mul_comm 3, Nat.mul_assoc, Nat.mul_assoc, Nat.mul_comm 3]
    rw [hnum, hlen, u]
    have hpos : 0 < d.files.flatten.length := List.length_pos_iff.mpr hne
    have hb : d.nodes.length ≤ d.nodes.length * d.files.flatten.length := Nat.le_mul_of_pos_right _ hpos
    rw [e] at h1
    rcases ok.ws with h | h <;> rw [h] at h1 <;> omega
  have hcoord := fun (hh : d.hasCoords = true) => hnode Step.coords
    (fun s so => by rw [so.coords, if_pos hh]) (fun s => by rw [hlw]; omega)
  have hvel := fun (hh : d.hasVelocity = true) => hnode Step.velocity
    (fun s so => by rw [so.velocity, if_pos hh]) (fun s => by rw [hlw]; omega)
  have hacc := fun (hh : d.hasAcceleration = true) => hnode Step.acceleration
    (fun s so => by rw [so.acceleration, if_pos hh]) (fun s => by rw [hlw]; omega)
  have hne : ∀ (i : Nat) (s : Step), d.files.flatten[i]? = some s → d.files.flatten ≠ [] := by
    intro i s hi h
    rw [h] at hi
    simp at hi
  have all : ∀ (sel : Ptrs → Nat) (f : Plot → Nat → Call (List Nat)) (g : Step → List Nat),
      (∀ q i, f q i = readNodeData q (sel q.ptrs) i) →
      (∀ (i : Nat) (s : Step), d.files.flatten[i]? = some s → f plot i = .ok (plot, some (g s))) →
      readAllNodeData plot (sel plot.ptrs) = .ok (plot, some (d.files.flatten.flatMap g)) := by
    intro sel f g hf hg
    cases hfl : d.files.flatten with
    | nil =>
      unfold readAllNodeData
      have : plot.states = [] := List.length_eq_zero_iff.mp (by rw [hlen, hfl]; rfl)
      rw [this]
      rfl
    | cons a rest =>
      have h0 := hg 0 a (by rw [hfl]; rfl)
      have hp : sel plot.ptrs ≠ 0 := by
        intro h
        rw [hf] at h0
        unfold readNodeData at h0
        rw [if_pos h] at h0
        cases h0
      rw [allNodeData_eq plot sel hp, hlen, ← hfl]
      refine eachState_all _ 0 ?_
      intro k s hk
      rw [Nat.zero_add]
      show readNodeData plot (sel plot.ptrs) k = _
      rw [← hf]
      exact hg k s hk
  refine ⟨plot, ho, hlen, ?_, ?_, ?_, ?_, ?_⟩
  · intro i s hi
    obtain ⟨r1, r2, r3, r4⟩ := step i s hi
    refine ⟨?_, fun hh => ?_, fun hh => ?_, fun hh => ?_⟩
    · rw [(c108_times c hw hwo ht8 i).1, r1, hws]
      rfl
    · rw [(c108_node_data c hw hwo (hcoord hh (hne i s hi)).2.1 i).1, r2 hh, hws]
      rfl
    · rw [(c108_node_data c hw hwo (hvel hh (hne i s hi)).2.1 i).2.1, r3 hh, hws]
      rfl
    · rw [(c108_node_data c hw hwo (hacc hh (hne i s hi)).2.1 i).2.2, r4 hh, hws]
      rfl
  · rw [(c108_times c hw hwo ht8 0).2, c34_all_time, hlen,
      eachState_all (g := fun s : Step => [s.time]) d.files.flatten 0 (fun k s hk => by rw [Nat.zero_add]; exact (step k s hk).1), hws]
    show Res.ok (plot, some _) = _
    congr 4
    induction d.files.flatten with
    | nil => rfl
    | cons a rest ih => simp only [List.flatMap_cons, List.map_cons, ih]; rfl
  · intro hh
    by_cases hn0 : d.files.flatten = []
    · unfold allCoordinatesAs
      rw [none_all c w hlen hn0, hn0]
      rfl
    · obtain ⟨b1, -, b2⟩ := hcoord hh hn0
      rw [(c108_all_node_data c hw hwo b1 b2).1, hws]
      unfold readAllCoordinates
      rw [all Ptrs.stCoords readCoordinates Step.coords (fun _ _ => rfl) fun i s hi => (step i s hi).2.1 hh]
      rfl
  · intro hh
    by_cases hn0 : d.files.flatten = []
    · unfold allVelocityAs
      rw [none_all c w hlen hn0, hn0]
      rfl
    · obtain ⟨b1, -, b2⟩ := hvel hh hn0
      rw [(c108_all_node_data c hw hwo b1 b2).2.1, hws]
      unfold readAllVelocity
      rw [all Ptrs.stVel readVelocity Step.velocity (fun _ _ => rfl) fun i s hi => (step i s hi).2.2.1 hh]
      rfl
  · intro hh
    by_cases hn0 : d.files.flatten = []
    · unfold allAccelerationAs
      rw [none_all c w hlen hn0, hn0]
      rfl
    · obtain ⟨b1, -, b2⟩ := hacc hh hn0
      rw [(c108_all_node_data c hw hwo b1 b2).2.2, hws]
      unfold readAllAcceleration
      rw [all Ptrs.stAcc readAcceleration Step.acceleration (fun _ _ => rfl) fun i s hi => (step i s hi).2.2.2 hh]
      rfl

/-! ## Words as `double` -/

/-- C108, single words: at word `k`, with the words in front of the end, one or three words as `double` are the words of the file at `k`,
converted if they have 4 bytes, without an error, and the pointer is behind them. -/
theorem c108_words (c : Conv) {b : Buf} (g : Good b) (hws : b.ws = 4 ∨ b.ws = 8) {q : Pos} {k : Nat} (hq : Valid b q)
    (hk : absPos b q = k * b.ws) :
    (k + 1 ≤ words b → ∃ q', readDoubleWord c b (some q) = .ok (b, some q', numbersAs c b.ws 8 (wordsFrom b k 1)) ∧
      absPos b q' = (k + 1) * b.ws) ∧
    (k + 3 ≤ words b → ∃ q', readVec3 c b (some q) = .ok (b, some q', numbersAs c b.ws 8 (wordsFrom b k 3)) ∧
      absPos b q' = (k + 3) * b.ws) := by
  have main : ∀ n, n ≤ 3 → k + n ≤ words b → ∃ q' bytes, readWords b (some q) n = .ok (b, some q', bytes) ∧
      wordsAsDouble c b n bytes = numbersAs c b.ws 8 (wordsFrom b k n) ∧ absPos b q' = (k + n) * b.ws := by
    intro n h3 hn
    have h1 := (le_words g).1 hn
    have hn8 : n * b.ws < u64 := by
      unfold u64
      rcases hws with h | h <;> rw [h] <;> omega
    rw [Nat.add_mul] at h1
    obtain ⟨q', e, -, e3, -⟩ := read_inside (n := n) hq hn8 (by rw [hk]; exact h1)
    refine ⟨q', _, e, ?_, by rw [e3, hk, Nat.add_mul]⟩
    unfold wordsAsDouble numbersAs
    rw [if_neg (by rw [List.length_take, List.length_drop, hk]; omega), hk, toWords_eq]
    apply List.map_congr_left
    intro x _
    rcases hws with h | h <;> rw [h] <;> rfl
  constructor
  · intro h
    obtain ⟨q', bytes, e1, e2, e3⟩ := main 1 (by omega) h
    refine ⟨q', ?_, e3⟩
    unfold readDoubleWord
    rw [e1]
    exact congrArg (fun l => Res.ok (b, some q', l)) e2
  · intro h
    obtain ⟨q', bytes, e1, e2, e3⟩ := main 3 (by omega) h
    refine ⟨q', ?_, e3⟩
    unfold readVec3
    rw [e1]
    exact congrArg (fun l => Res.ok (b, some q', l)) e2

/-- Three words over the boundary of two files. -/
theorem c108_words_sample (c : Conv) : Valid twoFiles ⟨0, 0, 0⟩ ∧ absPos twoFiles ⟨0, 0, 0⟩ = 0 * twoFiles.ws ∧ 0 + 3 ≤ words twoFiles ∧
    twoFiles.ws = 4 ∧ readVec3 c twoFiles (some ⟨0, 0, 0⟩) =
      .ok (twoFiles, some ⟨1, 4, 3⟩, [some (c.widen 0x04030201), some (c.widen 0x08070605), some (c.widen 0x0c0b0a09)]) := by
  refine ⟨⟨_, rfl, by decide +kernel⟩, by decide +kernel, by decide +kernel, by decide +kernel, ?_⟩
  unfold readVec3
  rw [show readWords twoFiles (some ⟨0, 0, 0⟩) 3 = .ok (twoFiles, some ⟨1, 4, 3⟩, [1, 2, 3, 4, 5, 6, 7, 8, 9, 10, 11, 12]) by decide +kernel]
  rfl

/-! ## The conversion of a number -/

/-- Specification: the number with an exponent field `e` (with `bias` such that 1 is the smallest exponent) and a fraction `m` of `k` bits, in
units of 2 ^ -1074. `shift` is the exponent of the smallest number of the format, plus 1074. -/
def magnitude (k shift e m : Nat) : Nat :=
  if e = 0 then m * 2 ^ shift else (2 ^ k + m) * 2 ^ (e - 1 + shift)

/-- Specification (IEEE 754, binary32): sign, exponent and fraction. -/
def singleFields (b : Nat) : Nat × Nat × Nat := (b / 2 ^ 31, b / 2 ^ 23 % 2 ^ 8, b % 2 ^ 23)
/-- Specification (IEEE 754, binary64): sign, exponent and fraction. -/
def doubleFields (b : Nat) : Nat × Nat × Nat := (b / 2 ^ 63, b / 2 ^ 52 % 2 ^ 11, b % 2 ^ 52)

/-- Specification: what bit patterns mean: NaN, an infinity with its sign, or a number in units of 2 ^ -1074 with its sign. -/
inductive Meaning where
  | nan
  | inf (sign : Nat)
  | finite (sign : Nat) (units : Nat)
deriving DecidableEq

/-- Specification (IEEE 754, binary32): the smallest positive number is 2 ^ -149. -/
def singleMeaning (b : Nat) : Meaning :=
  match singleFields b with
  | (s, e, m) => if e = 255 then (if m = 0 then .inf s else .nan) else .finite s (magnitude 23 925 e m)

/-- Specification (IEEE 754, binary64): the smallest positive number is 2 ^ -1074. -/
def doubleMeaning (b : Nat) : Meaning :=
  match doubleFields b with
  | (s, e, m) => if e = 2047 then (if m = 0 then .inf s else .nan) else .finite s (magnitude 52 0 e m)

theorem join_fields {s e m : Nat} (he : e < 2 ^ 11) (hm : m < 2 ^ 52) :
    doubleFields (s * 2 ^ 63 + (e * 2 ^ 52 + m)) = (s, e, m) := by
  unfold doubleFields
  refine Prod.ext_iff.mpr ⟨?_, Prod.ext_iff.mpr ⟨?_, ?_⟩⟩ <;> simp only <;> omega

theorem normal_units {e m : Nat} (he : e ≠ 0) : magnitude 52 0 (e + 896) (m * 2 ^ 29) = magnitude 23 925 e m := by
  unfold magnitude
  rw [if_neg he, if_neg (by omega), show (2 : Nat) ^ 52 = 2 ^ 23 * 2 ^ 29 by rfl, ← Nat.add_mul, Nat.mul_assoc, ← Nat.pow_add,
    show 29 + (e + 896 - 1 + 0) = e - 1 + 925 by omega]

theorem log2_facts {m : Nat} (hm : m ≠ 0) (h : m < 2 ^ 23) : Nat.log2 m < 23 ∧ 2 ^ Nat.log2 m ≤ m ∧ m < 2 ^ (Nat.log2 m + 1) :=
  ⟨(Nat.log2_lt hm).mpr h, Nat.log2_self_le hm, Nat.lt_log2_self⟩

theorem two_52 {k : Nat} (h : k < 23) : (2 : Nat) ^ 52 = 2 ^ k * 2 ^ (52 - k) := by
  rw [← Nat.pow_add, show k + (52 - k) = 52 by omega]

theorem subnormal_units {m : Nat} (hm : m ≠ 0) (h : m < 2 ^ 23) :
    magnitude 52 0 (Nat.log2 m + 874) ((m - 2 ^ Nat.log2 m) * 2 ^ (52 - Nat.log2 m)) = magnitude 23 925 0 m := by
  obtain ⟨h1, h2, -⟩ := log2_facts hm h
  generalize Nat.log2 m = k at h1 h2
  unfold magnitude
  rw [if_pos rfl, if_neg (by omega)]
  have e := two_52 h1
  rw [e, ← Nat.add_mul, Nat.add_sub_cancel' h2, Nat.mul_assoc, ← Nat.pow_add,
    show 52 - k + (k + 874 - 1 + 0) = 925 by omega]

theorem subnormal_fraction {m : Nat} (hm : m ≠ 0) (h : m < 2 ^ 23) : (m - 2 ^ Nat.log2 m) * 2 ^ (52 - Nat.log2 m) < 2 ^ 52 := by
  obtain ⟨h1, h2, h3⟩ := log2_facts hm h
  generalize Nat.log2 m = k at h1 h2 h3
  have e := two_52 h1
  rw [e]
  refine Nat.mul_lt_mul_of_pos_right ?_ (Nat.pow_pos (by decide))
  rw [Nat.pow_succ] at h3
  omega

/-- C108, a number: the `double` that a `float` becomes means the same: NaN, an infinity with the same sign, or exactly the same number with
the same sign, for all 2 ^ 32 bit patterns. -/
theorem c108_exact {b : Nat} (hb : b < 2 ^ 32) : doubleMeaning (widen b) = singleMeaning b ∧ widen b < 2 ^ 64 := by
  have hs : b / 2 ^ 31 % 2 = b / 2 ^ 31 := by omega
  have hm : b % 2 ^ 23 < 2 ^ 23 := Nat.mod_lt _ (by decide)
  have he : b / 2 ^ 23 % 2 ^ 8 < 2 ^ 8 := Nat.mod_lt _ (by decide)
  have hs2 : b / 2 ^ 31 < 2 := by omega
  unfold singleMeaning singleFields widen
  simp only
  rw [hs]
  generalize b / 2 ^ 31 = s at hs2
  generalize b % 2 ^ 23 = m at hm
  generalize b / 2 ^ 23 % 2 ^ 8 = e at he
  by_cases h255 : e = 255
  · subst h255
    rw [if_pos rfl, if_neg (by omega), if_pos rfl]
    unfold doubleMeaning
    rw [join_fields (by omega) (by omega)]
    simp only [if_true]
    refine ⟨?_, by omega⟩
    by_cases h0 : m = 0
    · rw [if_pos h0, if_pos (by omega)]
    · rw [if_neg h0, if_neg (by omega)]
  · rw [if_neg h255, if_neg h255]
    by_cases h0 : e = 0
    · subst h0
      rw [if_pos rfl, if_pos rfl]
      by_cases hm0 : m = 0
      · subst hm0
        rw [if_pos rfl]
        have z : (0 - 2 ^ Nat.log2 0) * 2 ^ (52 - Nat.log2 0) = 0 := by rw [Nat.zero_sub, Nat.zero_mul]
        rw [z]
        unfold doubleMeaning
        rw [join_fields (by omega) (by omega)]
        refine ⟨?_, by omega⟩
        simp only [magnitude, if_true, Nat.zero_mul]
        rfl
      · rw [if_neg hm0]
        have hf := subnormal_fraction hm0 hm
        have hk := (log2_facts hm0 hm).1
        have hu := subnormal_units hm0 hm
        generalize (m - 2 ^ Nat.log2 m) * 2 ^ (52 - Nat.log2 m) = m' at hf hu
        generalize Nat.log2 m = k at hk hu
        unfold doubleMeaning
        rw [join_fields (by omega) hf]
        simp only
        rw [if_neg (by omega), hu]
        exact ⟨rfl, by omega⟩
    · rw [if_neg h0, if_neg h0]
      unfold doubleMeaning
      rw [join_fields (by omega) (by omega)]
      simp only
      rw [if_neg (by omega), normal_units h0]
      exact ⟨rfl, by omega⟩

/-- The `float` that a `double` with these fields comes from. Auxiliary of the proof, models no code. -/
def unwiden : Nat × Nat × Nat → Nat
  | (s, e, m) =>
    s * 2 ^ 31 + (if e = 2047 then 255 * 2 ^ 23 + m / 2 ^ 29 else if e = 0 then 0
      else if e < 897 then 2 ^ (e - 874) + m / 2 ^ (52 - (e - 874)) else (e - 896) * 2 ^ 23 + m / 2 ^ 29)

theorem unwiden_widen {b : Nat} (hb : b < 2 ^ 32) : unwiden (doubleFields (widen b)) = b := by
  have hs : b / 2 ^ 31 % 2 = b / 2 ^ 31 := by omega
  have hm : b % 2 ^ 23 < 2 ^ 23 := Nat.mod_lt _ (by decide)
  have he : b / 2 ^ 23 % 2 ^ 8 < 2 ^ 8 := Nat.mod_lt _ (by decide)
  have hj : b = b / 2 ^ 31 * 2 ^ 31 + (b / 2 ^ 23 % 2 ^ 8 * 2 ^ 23 + b % 2 ^ 23) := by omega
  unfold widen
  simp only
  rw [hs]
  conv => rhs; rw [hj]
  clear hj hs
  generalize b / 2 ^ 31 = s
  generalize b % 2 ^ 23 = m at hm
  generalize b / 2 ^ 23 % 2 ^ 8 = e at he
  by_cases h255 : e = 255
  · subst h255
    rw [if_pos rfl, if_neg (by omega), join_fields (by omega) (by omega)]
    unfold unwiden
    simp only [if_true]
    rw [Nat.mul_div_cancel _ (by decide)]
  · rw [if_neg h255]
    by_cases h0 : e = 0
    · subst h0
      rw [if_pos rfl, if_pos rfl]
      by_cases hm0 : m = 0
      · subst hm0
        have z : (0 - 2 ^ Nat.log2 0) * 2 ^ (52 - Nat.log2 0) = 0 := by rw [Nat.zero_sub, Nat.zero_mul]
        rw [if_pos rfl, z, join_fields (by omega) (by omega)]
        rfl
      · rw [if_neg hm0]
        have hf := subnormal_fraction hm0 hm
        obtain ⟨hk, h2, -⟩ := log2_facts hm0 hm
        generalize Nat.log2 m = k at hk h2 hf
        rw [join_fields (by omega) hf]
        unfold unwiden
        simp only
        rw [if_neg (by omega), if_neg (by omega), if_pos (by omega), Nat.add_sub_cancel,
          Nat.mul_div_cancel _ (Nat.pow_pos (by decide)), Nat.zero_mul, Nat.zero_add, Nat.add_sub_cancel' h2]
    · rw [if_neg h0, if_neg h0, join_fields (by omega) (by omega)]
      unfold unwiden
      simp only
      rw [if_neg (by omega), if_neg (by omega), if_neg (by omega), Nat.mul_div_cancel _ (by decide), Nat.add_sub_cancel]

/-- C108: nothing is lost: different `float`s, NaNs with their payload and the two zeros included, become different `double`s. -/
theorem c108_distinct {a b : Nat} (ha : a < 2 ^ 32) (hb : b < 2 ^ 32) (h : widen a = widen b) : a = b := by
  rw [← unwiden_widen ha, ← unwiden_widen hb, h]

/-- Some numbers: 1.0, -2.5, the smallest positive `float`, the largest one, an infinity; 1.0 is 2 ^ 1074 units. -/
theorem c108_numbers : widen 0x3F800000 = 0x3FF0000000000000 ∧ widen 0xC0200000 = 0xC004000000000000 ∧
    widen 1 = 0x36A0000000000000 ∧ widen 0x7F7FFFFF = 0x47EFFFFFE0000000 ∧ widen 0xFF800000 = 0xFFF0000000000000 ∧
    widen 0 = 0 ∧ widen 0x80000000 = 0x8000000000000000 ∧
    singleMeaning 0x3F800000 = .finite 0 (2 ^ 1074) ∧ doubleMeaning 0xC004000000000000 = .finite 1 (5 * 2 ^ 1073) := by
  decide +kernel

/-- A database with words of 4 bytes and three states in two files meets the hypotheses; as `double` its times are those of `widen`. -/
theorem c108_sample (narrow : Nat → Nat) : sampleDb.Ok ∧ sampleDb.ws = 4 ∧ sampleDb.hasCoords = true ∧
    numbersAs ⟨widen, narrow⟩ sampleDb.ws 8 (sampleDb.files.flatten.map Step.time) =
      [some 0x36A0000000000000, some 0x36B0000000000000, some 0x36B8000000000000] ∧
    numbersAs ⟨widen, narrow⟩ sampleDb.ws 4 (sampleDb.files.flatten.map Step.time) = [some 1, some 2, some 3] := by
  refine ⟨c105_sample.1, rfl, rfl, ?_, rfl⟩
  show numbersAs ⟨widen, narrow⟩ 4 8 [1, 2, 3] = _
  show [some (widen 1), some (widen 2), some (widen 3)] = _
  rw [show widen 1 = 0x36A0000000000000 by decide +kernel, show widen 2 = 0x36B0000000000000 by decide +kernel,
    show widen 3 = 0x36B8000000000000 by decide +kernel]

end Dyna.D3
