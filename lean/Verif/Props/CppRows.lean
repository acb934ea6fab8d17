import Verif.CppRows
/-!
# C82: the arrays of the time steps

The arrays that one read of all time steps returns behave as independent values as long as the first of them
exists.
-/

namespace Dyna.Rows

open Dyna

variable {α : Type}

/-! ## Specification -/

/-- Specification: an array is a list of values; `origin` is the read (or copy) it comes from, `first` tells
whether it is the first array of that. -/
structure Part (α : Type) where
  vals : List α
  origin : Option Nat
  first : Bool

/-- Specification: number of reads and copies so far, for which of them the first array is gone, and
the arrays. -/
structure Spec (α : Type) where
  made : Nat
  gone : Nat → Bool
  parts : Nat → Option (Part α)

/-- Specification: the first array of the read that `p` comes from still exists. -/
def Spec.kept (t : Spec α) (p : Part α) : Prop := ∀ g, p.origin = some g → t.gone g = false

/-- Specification: replace an array. -/
def Spec.put (t : Spec α) (x : Nat) (p : Option (Part α)) : Spec α :=
  { t with parts := fun y => if y = x then p else t.parts y }

instance (t : Spec α) (p : Part α) : Decidable (t.kept p) :=
  match h : p.origin with
  | none => .isTrue (fun g hg => by rw [h] at hg; cases hg)
  | some g => if hg : t.gone g = false then .isTrue (fun g' h' => by
      rw [h] at h'; cases h'; exact hg) else .isFalse (fun hk => hg (hk g h))

/-- Specification: the effect of a command. Elements may be used only while the first array of the read
exists. -/
def Spec.step (t : Spec α) : Cmd α → Res (Spec α × List (Obs α))
  | .read x n rows =>
    if (∀ r ∈ rows, r.length = n) ∧ (∀ k < rows.length, t.parts (x + k) = none) then
      .ok ({ made := t.made + 1, gone := t.gone, parts := fun y =>
        if x ≤ y then
          match rows[y - x]? with
          | some r => some ⟨r, some t.made, y == x⟩
          | none => t.parts y
        else t.parts y }, [])
    else .ub
  | .copy x y => match t.parts x, t.parts y with
    | none, some p =>
      if p.vals = [] ∨ t.kept p then
        .ok (({ t with made := t.made + 1 } : Spec α).put x (some ⟨p.vals, some t.made, true⟩), [])
      else .ub
    | _, _ => .ub
  | .move x y => match t.parts x, t.parts y with
    | none, some p => .ok ((t.put x (some p)).put y (some ⟨[], none, false⟩), [])
    | _, _ => .ub
  | .destroy x => match t.parts x with
    | none => .ub
    | some p => .ok (({ t with gone := fun g =>
        if p.first ∧ p.origin = some g then true else t.gone g } : Spec α).put x none, [])
  | .get x i => match t.parts x with
    | none => .ub
    | some p => match p.vals[i]? with
      | none => .ok (t, [.outOfRange])
      | some v => if t.kept p then .ok (t, [.value v]) else .ub
  | .set x i v => match t.parts x with
    | none => .ub
    | some p =>
      if i < p.vals.length then
        if t.kept p then .ok (t.put x (some { p with vals := p.vals.set i v }), []) else .ub
      else .ok (t, [.outOfRange])

/-- Specification: a sequence of commands. -/
def Spec.run (t : Spec α) : List (Cmd α) → Res (Spec α × List (Obs α))
  | [] => .ok (t, [])
  | c :: cs => do
    let (t1, o1) ← t.step c
    let (t2, o2) ← t1.run cs
    .ok (t2, o1 ++ o2)

/-- Specification: nothing has happened. -/
def Spec.init : Spec α := ⟨0, fun _ => false, fun _ => none⟩

/-- What a program gets to see. Part of the specification. -/
def seen {β : Type} : Res (β × List (Obs α)) → Res (List (Obs α))
  | .ok (_, o) => .ok o
  | .err => .err
  | .ub => .ub
  | .abort => .abort

/-! ## The memory represents the values -/

/-- Auxiliary: the array has these values. -/
structure Fits (s : State α) (t : Spec α) (o : Obj) (p : Part α) : Prop where
  size : o.size = p.vals.length
  ptr : o.ptr = p.origin
  own : o.own = p.first
  mem : ∀ g, o.ptr = some g → ∃ b, s.heap[g]? = some b ∧ b.live = !t.gone g ∧
    o.off + o.size ≤ b.cells.length ∧ (b.cells.drop o.off).take o.size = p.vals
  null : o.ptr = none → o.size = 0 ∧ o.own = false

/-- Auxiliary: memory and values. -/
structure Rel (s : State α) (t : Spec α) : Prop where
  made : t.made = s.heap.length
  fresh : ∀ g, s.heap.length ≤ g → t.gone g = false
  none : ∀ x, s.objs x = none ↔ t.parts x = none
  fits : ∀ x o p, s.objs x = some o → t.parts x = some p → Fits s t o p
  apart : ∀ x y ox oy g, x ≠ y → s.objs x = some ox → s.objs y = some oy → ox.ptr = some g → oy.ptr = some g →
    (ox.off + ox.size ≤ oy.off ∨ oy.off + oy.size ≤ ox.off) ∧ ¬ (ox.own = true ∧ oy.own = true)
  owner : ∀ x o g, s.objs x = some o → o.own = true → o.ptr = some g → t.gone g = false

theorem Rel.init : Rel (State.init : State α) Spec.init where
  made := rfl
  fresh := fun _ _ => rfl
  none := fun _ => by simp [State.init, Spec.init]
  fits := fun _ _ _ h => by cases h
  apart := fun _ _ _ _ _ _ h => by cases h
  owner := fun _ _ _ h => by cases h

theorem Rel.cases {s : State α} {t : Spec α} (R : Rel s t) (x : Nat) :
    (s.objs x = .none ∧ t.parts x = .none) ∨ ∃ o p, s.objs x = some o ∧ t.parts x = some p ∧ Fits s t o p := by
  cases h1 : s.objs x with
  | none => exact .inl ⟨rfl, (R.none x).1 h1⟩
  | some o =>
    cases h2 : t.parts x with
    | none => rw [(R.none x).2 h2] at h1; cases h1
    | some p => exact .inr ⟨o, p, rfl, rfl, R.fits x o p h1 h2⟩

theorem Fits.cell {s : State α} {t : Spec α} {o : Obj} {p : Part α} (F : Fits s t o p) {i : Nat} {v : α}
    (hv : p.vals[i]? = some v) : (t.kept p → s.cell o i = .ok v) ∧ (¬ t.kept p → s.cell o i = .ub) := by
  have hi : i < p.vals.length := (List.getElem?_eq_some_iff.1 hv).1
  cases hp : o.ptr with
  | none =>
    have := (F.null hp).1
    have := F.size
    omega
  | some g =>
    obtain ⟨b, b1, b2, b3, b4⟩ := F.mem g hp
    have hk : t.kept p ↔ t.gone g = false := by
      unfold Spec.kept
      rw [← F.ptr, hp]
      simp
    unfold State.cell
    rw [hp]
    simp only [b1]
    constructor
    · intro h
      rw [hk] at h
      rw [if_pos (by rw [b2, h]; rfl)]
      have : b.cells[o.off + i]? = some v := by
        rw [← b4, List.getElem?_take_of_lt (by rw [F.size]; exact hi), List.getElem?_drop] at hv
        exact hv
      rw [this]
      rfl
    · intro h
      rw [hk] at h
      rw [if_neg (by rw [b2]; simpa using h)]

theorem Fits.cells {s : State α} {t : Spec α} {o : Obj} {p : Part α} (F : Fits s t o p) :
    ∀ (n i : Nat), i + n = p.vals.length →
      (t.kept p → s.cells o n i = .ok (p.vals.drop i)) ∧ (n ≠ 0 → ¬ t.kept p → s.cells o n i = .ub) := by
  intro n
  induction n with
  | zero =>
    intro i h
    refine ⟨fun _ => ?_, fun h => absurd rfl h⟩
    rw [List.drop_eq_nil_of_le (by omega)]
    rfl
  | succ n ih =>
    intro i h
    have hv : p.vals[i]? = some p.vals[i] := List.getElem?_eq_getElem (by omega)
    obtain ⟨c1, c2⟩ := F.cell hv
    obtain ⟨d1, _⟩ := ih (i + 1) (by omega)
    constructor
    · intro hk
      unfold State.cells
      rw [c1 hk, d1 hk]
      simp only [Res.bind_ok]
      rw [List.drop_eq_getElem_cons (show i < p.vals.length by omega)]
      rfl
    · intro _ hk
      unfold State.cells
      rw [c2 hk]
      rfl

/-- Auxiliary: the same answer of the code and of the specification. -/
def Same (r : Res (State α × List (Obs α))) (q : Res (Spec α × List (Obs α))) : Prop :=
  (r = .ub ∧ q = .ub) ∨ ∃ s t o, r = .ok (s, o) ∧ q = .ok (t, o) ∧ Rel s t

theorem flatten_row : ∀ (rows : List (List α)) (n k : Nat) (r : List α), (∀ r ∈ rows, r.length = n) →
    rows[k]? = some r → k * n + n ≤ rows.flatten.length ∧ (rows.flatten.drop (k * n)).take n = r := by
  intro rows
  induction rows with
  | nil => intro n k r _ h; simp at h
  | cons a rs ih =>
    intro n k r hl h
    have ha := hl a (by simp)
    cases k with
    | zero =>
      simp at h
      subst h
      constructor
      · simp; omega
      · simp [← ha]
    | succ k =>
      obtain ⟨h1, h2⟩ := ih n k r (fun r hr => hl r (by simp [hr])) (by simpa using h)
      have e : (k + 1) * n = n + k * n := by rw [Nat.add_mul]; omega
      constructor
      · rw [List.flatten_cons, List.length_append]; omega
      · rw [List.flatten_cons, e, ← ha, List.drop_append, List.drop_eq_nil_of_le (by omega), List.nil_append]
        rw [ha]
        rw [show n + k * n - n = k * n by omega]
        exact h2

theorem rows_length {rows : List (List α)} {n : Nat} (h : ∀ r ∈ rows, r.length = n) {k : Nat} {r : List α}
    (hk : rows[k]? = some r) : r.length = n := h r (List.mem_of_getElem? hk)

theorem same_read {s : State α} {t : Spec α} (R : Rel s t) (x n : Nat) (rows : List (List α)) :
    Same (s.step (.read x n rows)) (t.step (.read x n rows)) := by
  unfold State.step Spec.step
  by_cases hc : (∀ r ∈ rows, r.length = n) ∧ (∀ k < rows.length, s.objs (x + k) = .none)
  · have hc' : (∀ r ∈ rows, r.length = n) ∧ (∀ k < rows.length, t.parts (x + k) = .none) :=
      ⟨hc.1, fun k hk => (R.none _).1 (hc.2 k hk)⟩
    simp only [if_pos hc, if_pos hc']
    refine .inr ⟨_, _, [], rfl, rfl, ?_⟩
    -- an array of the new state is a new one or an old one
    have hobj : ∀ y o, (match rowObj s.heap.length x n rows.length y with
          | some o => some o
          | .none => s.objs y) = some o →
        (∃ k r, y = x + k ∧ rows[k]? = some r ∧ o = ⟨some s.heap.length, k * n, n, y == x⟩) ∨
        ((¬ (x ≤ y ∧ y < x + rows.length)) ∧ s.objs y = some o) := by
      intro y o h
      unfold rowObj at h
      by_cases hy : x ≤ y ∧ y < x + rows.length
      · rw [if_pos hy] at h
        simp only [Option.some.injEq] at h
        exact .inl ⟨y - x, rows[y - x], by omega, List.getElem?_eq_getElem (by omega), h.symm⟩
      · rw [if_neg hy] at h
        exact .inr ⟨hy, h⟩
    have hpart : ∀ y, (¬ (x ≤ y ∧ y < x + rows.length)) → (if x ≤ y then
          match rows[y - x]? with
          | some r => some (Part.mk r (some t.made) (y == x))
          | .none => t.parts y
        else t.parts y) = t.parts y := by
      intro y hy
      by_cases h1 : x ≤ y
      · rw [if_pos h1, List.getElem?_eq_none (by omega)]
      · rw [if_neg h1]
    have hpart' : ∀ k r, rows[k]? = some r → (if x ≤ x + k then
          match rows[x + k - x]? with
          | some r => some (Part.mk r (some t.made) (x + k == x))
          | .none => t.parts (x + k)
        else t.parts (x + k)) = some (Part.mk r (some t.made) (x + k == x)) := by
      intro k r hr
      rw [if_pos (by omega), show x + k - x = k by omega, hr]
    constructor
    · simp [R.made]
    · intro g hg
      simp at hg
      exact R.fresh g (by omega)
    · intro y
      dsimp only
      by_cases hy : x ≤ y ∧ y < x + rows.length
      · obtain ⟨k, rfl⟩ : ∃ k, y = x + k := ⟨y - x, by omega⟩
        rw [hpart' k rows[k] (List.getElem?_eq_getElem (by omega))]
        unfold rowObj
        rw [if_pos hy]
        simp
      · rw [hpart y hy]
        unfold rowObj
        rw [if_neg hy]
        exact R.none y
    · intro y o p h1 h2
      dsimp only at h1 h2
      rcases hobj y o h1 with ⟨k, r, rfl, hr, rfl⟩ | ⟨hy, ho⟩
      · rw [hpart' k r hr] at h2
        simp only [Option.some.injEq] at h2
        subst h2
        obtain ⟨f1, f2⟩ := flatten_row rows n k r hc.1 hr
        refine ⟨(rows_length hc.1 hr).symm, by simp [R.made], rfl, ?_, by simp⟩
        intro g hg
        simp only [Option.some.injEq] at hg
        subst hg
        exact ⟨⟨true, rows.flatten⟩, by simp, by rw [R.fresh _ (Nat.le_refl _)]; rfl, f1, f2⟩
      · rw [hpart y hy] at h2
        obtain ⟨a1, a2, a3, a4, a5⟩ := R.fits y o p ho h2
        refine ⟨a1, a2, a3, ?_, a5⟩
        intro g hg
        obtain ⟨b, b1, b2⟩ := a4 g hg
        have hlt : g < s.heap.length := (List.getElem?_eq_some_iff.1 b1).1
        exact ⟨b, by rw [List.getElem?_append_left hlt]; exact b1, b2⟩
    · intro y z oy oz g hyz h1 h2 h3 h4
      dsimp only at h1 h2
      have hold : ∀ y o, s.objs y = some o → o.ptr = some g → g < s.heap.length := by
        intro y o ho hg
        rcases R.cases y with ⟨e, _⟩ | ⟨o', p', e1, e2, F⟩
        · rw [e] at ho; cases ho
        · rw [e1] at ho; cases ho
          obtain ⟨b, b1, _⟩ := F.mem g hg
          exact (List.getElem?_eq_some_iff.1 b1).1
      rcases hobj y oy h1 with ⟨k, r, rfl, hr, rfl⟩ | ⟨hy, ho⟩ <;>
        rcases hobj z oz h2 with ⟨k', r', rfl, hr', rfl⟩ | ⟨hy', ho'⟩
      · have hne : k ≠ k' := fun e => hyz (by rw [e])
        constructor
        · dsimp only
          rcases Nat.lt_or_gt_of_ne hne with hlt | hlt
          · left
            calc k * n + n = (k + 1) * n := by rw [Nat.add_mul]; omega
              _ ≤ k' * n := Nat.mul_le_mul_right n hlt
          · right
            calc k' * n + n = (k' + 1) * n := by rw [Nat.add_mul]; omega
              _ ≤ k * n := Nat.mul_le_mul_right n hlt
        · simp; omega
      · simp only [Option.some.injEq] at h3
        have := hold z oz ho' h4
        omega
      · simp only [Option.some.injEq] at h4
        have := hold y oy ho h3
        omega
      · exact R.apart y z oy oz g hyz ho ho' h3 h4
    · intro y o g h1 h2 h3
      dsimp only at h1
      rcases hobj y o h1 with ⟨k, r, rfl, hr, rfl⟩ | ⟨hy, ho⟩
      · simp only [Option.some.injEq] at h3
        exact R.fresh g (by omega)
      · exact R.owner y o g ho h2 h3
  · have hc' : ¬ ((∀ r ∈ rows, r.length = n) ∧ (∀ k < rows.length, t.parts (x + k) = .none)) :=
      fun h => hc ⟨h.1, fun k hk => (R.none _).2 (h.2 k hk)⟩
    simp only [if_neg hc, if_neg hc']
    exact .inl ⟨rfl, rfl⟩

theorem same_copy {s : State α} {t : Spec α} (R : Rel s t) (x y : Nat) :
    Same (s.step (.copy x y)) (t.step (.copy x y)) := by
  unfold State.step Spec.step
  dsimp only
  rcases R.cases x with ⟨e1, e2⟩ | ⟨o, p, e1, e2, F⟩
  · rw [e1, e2]
    rcases R.cases y with ⟨d1, d2⟩ | ⟨o, p, d1, d2, F⟩
    · rw [d1, d2]; exact .inl ⟨rfl, rfl⟩
    · rw [d1, d2]
      dsimp only
      by_cases hk : p.vals = [] ∨ t.kept p
      · rw [if_pos hk]
        have hcells : s.cells o o.size 0 = .ok p.vals := by
          rcases hk with hk | hk
          · rw [F.size, hk]; rfl
          · have := ((F.cells o.size 0) (by rw [F.size]; omega)).1 hk
            simpa using this
        rw [hcells]
        simp only [Res.bind_ok]
        refine .inr ⟨_, _, [], rfl, rfl, ?_⟩
        have hold : ∀ y o g, s.objs y = some o → o.ptr = some g → g < s.heap.length := by
          intro y o g ho hg
          rcases R.cases y with ⟨e, _⟩ | ⟨o', p', e1, e2, F⟩
          · rw [e] at ho; cases ho
          · rw [e1] at ho; cases ho
            obtain ⟨b, b1, _⟩ := F.mem g hg
            exact (List.getElem?_eq_some_iff.1 b1).1
        constructor
        · simp [State.put, Spec.put, R.made]
        · intro g hg
          simp [State.put] at hg
          exact R.fresh g (by omega)
        · intro z
          simp only [State.put, Spec.put]
          by_cases hz : z = x
          · simp [hz]
          · simp only [if_neg hz]; exact R.none z
        · intro z oz pz h1 h2
          simp only [State.put, Spec.put] at h1 h2
          by_cases hz : z = x
          · rw [if_pos hz] at h1 h2
            cases h1; cases h2
            refine ⟨F.size, by simp [R.made], rfl, ?_, by simp⟩
            intro g hg
            simp only [Option.some.injEq] at hg
            subst hg
            refine ⟨⟨true, p.vals⟩, by simp [State.put], ?_, by simp [F.size], by simp [F.size]⟩
            show true = !(t.gone s.heap.length)
            rw [R.fresh _ (Nat.le_refl _)]; rfl
          · rw [if_neg hz] at h1 h2
            obtain ⟨a1, a2, a3, a4, a5⟩ := R.fits z oz pz h1 h2
            refine ⟨a1, a2, a3, ?_, a5⟩
            intro g hg
            obtain ⟨b, b1, b2⟩ := a4 g hg
            have hlt : g < s.heap.length := (List.getElem?_eq_some_iff.1 b1).1
            exact ⟨b, by simp only [State.put]; rw [List.getElem?_append_left hlt]; exact b1, b2⟩
        · intro z1 z2 o1 o2 g hne h1 h2 h3 h4
          simp only [State.put] at h1 h2
          by_cases hz1 : z1 = x
          · rw [if_pos hz1] at h1
            cases h1
            rw [if_neg (by omega)] at h2
            simp only [Option.some.injEq] at h3
            have := hold _ _ _ h2 h4
            omega
          · rw [if_neg hz1] at h1
            by_cases hz2 : z2 = x
            · rw [if_pos hz2] at h2
              cases h2
              simp only [Option.some.injEq] at h4
              have := hold _ _ _ h1 h3
              omega
            · rw [if_neg hz2] at h2
              exact R.apart _ _ _ _ g hne h1 h2 h3 h4
        · intro z oz g h1 h2 h3
          simp only [State.put] at h1
          by_cases hz : z = x
          · rw [if_pos hz] at h1
            cases h1
            simp only [Option.some.injEq] at h3
            exact R.fresh g (by omega)
          · rw [if_neg hz] at h1
            exact R.owner z oz g h1 h2 h3
      · rw [if_neg hk]
        have hne : o.size ≠ 0 := by
          intro h
          apply hk
          left
          exact List.length_eq_zero_iff.1 (by rw [← F.size]; exact h)
        rw [((F.cells o.size 0) (by rw [F.size]; omega)).2 hne (fun h => hk (.inr h))]
        exact .inl ⟨rfl, rfl⟩
  · rw [e1, e2]; exact .inl ⟨rfl, rfl⟩

theorem same_move {s : State α} {t : Spec α} (R : Rel s t) (x y : Nat) :
    Same (s.step (.move x y)) (t.step (.move x y)) := by
  unfold State.step Spec.step
  dsimp only
  rcases R.cases x with ⟨e1, e2⟩ | ⟨o, p, e1, e2, F⟩
  · rw [e1, e2]
    rcases R.cases y with ⟨d1, d2⟩ | ⟨o, p, d1, d2, F⟩
    · rw [d1, d2]; exact .inl ⟨rfl, rfl⟩
    · rw [d1, d2]
      dsimp only
      have hxy : x ≠ y := by
        rintro rfl
        rw [e1] at d1; cases d1
      refine .inr ⟨_, _, [], rfl, rfl, ?_⟩
      -- an array with a pointer of the new state is an array of the old state under another name
      have hobj : ∀ z oz, ((s.put x (some o)).put y (some ⟨.none, 0, 0, false⟩)).objs z = some oz →
          oz.ptr ≠ .none → z ≠ y ∧ s.objs (if z = x then y else z) = some oz := by
        intro z oz h hp
        simp only [State.put] at h
        by_cases hz : z = y
        · rw [if_pos hz] at h
          cases h
          exact absurd rfl hp
        · rw [if_neg hz] at h
          refine ⟨hz, ?_⟩
          by_cases hzx : z = x
          · rw [if_pos hzx] at h ⊢
            rw [d1]; exact h
          · rw [if_neg hzx] at h ⊢; exact h
      constructor
      · exact R.made
      · exact R.fresh
      · intro z
        simp only [State.put, Spec.put]
        by_cases hz : z = y
        · simp [hz]
        · by_cases hzx : z = x
          · simp [hzx, hxy]
          · simp only [if_neg hz, if_neg hzx]; exact R.none z
      · intro z oz pz h1 h2
        simp only [State.put, Spec.put] at h1 h2
        by_cases hz : z = y
        · rw [if_pos hz] at h1 h2
          cases h1; cases h2
          exact ⟨rfl, rfl, rfl, fun g h => (by cases h), fun _ => ⟨rfl, rfl⟩⟩
        · rw [if_neg hz] at h1 h2
          by_cases hzx : z = x
          · rw [if_pos hzx] at h1 h2
            cases h1; cases h2
            exact ⟨F.size, F.ptr, F.own, F.mem, F.null⟩
          · rw [if_neg hzx] at h1 h2
            obtain ⟨a1, a2, a3, a4, a5⟩ := R.fits z oz pz h1 h2
            exact ⟨a1, a2, a3, a4, a5⟩
      · intro z1 z2 o1 o2 g hne h1 h2 h3 h4
        obtain ⟨n1, w1⟩ := hobj z1 o1 h1 (by simp [h3])
        obtain ⟨n2, w2⟩ := hobj z2 o2 h2 (by simp [h4])
        refine R.apart _ _ _ _ g ?_ w1 w2 h3 h4
        by_cases a1 : z1 = x <;> by_cases a2 : z2 = x
        · omega
        · rw [if_pos a1, if_neg a2]; exact fun e => n2 e.symm
        · rw [if_neg a1, if_pos a2]; exact n1
        · rw [if_neg a1, if_neg a2]; exact hne
      · intro z oz g h1 h2 h3
        obtain ⟨_, w1⟩ := hobj z oz h1 (by simp [h3])
        exact R.owner _ oz g w1 h2 h3
  · rw [e1, e2]; exact .inl ⟨rfl, rfl⟩

theorem same_destroy {s : State α} {t : Spec α} (R : Rel s t) (x : Nat) :
    Same (s.step (.destroy x)) (t.step (.destroy x)) := by
  unfold State.step Spec.step
  dsimp only
  rcases R.cases x with ⟨e1, e2⟩ | ⟨o, p, e1, e2, F⟩
  · rw [e1, e2]; exact .inl ⟨rfl, rfl⟩
  · rw [e1, e2]
    dsimp only
    cases ho : o.own with
    | false =>
      refine .inr ⟨s.put x .none, _, [], rfl, rfl, ?_⟩
      have hf : p.first = false := by rw [← F.own]; exact ho
      have hgone : (fun g => if p.first = true ∧ p.origin = some g then true else t.gone g) = t.gone := by
        funext g
        rw [hf]
        simp
      rw [hgone]
      constructor
      · exact R.made
      · exact R.fresh
      · intro z
        simp only [State.put, Spec.put]
        by_cases hz : z = x
        · simp [hz]
        · simp only [if_neg hz]; exact R.none z
      · intro z oz pz h1 h2
        simp only [State.put, Spec.put] at h1 h2
        by_cases hz : z = x
        · rw [if_pos hz] at h1; cases h1
        · rw [if_neg hz] at h1 h2
          obtain ⟨a1, a2, a3, a4, a5⟩ := R.fits z oz pz h1 h2
          exact ⟨a1, a2, a3, a4, a5⟩
      · intro z1 z2 o1 o2 g hne h1 h2 h3 h4
        simp only [State.put] at h1 h2
        by_cases hz1 : z1 = x
        · rw [if_pos hz1] at h1; cases h1
        · by_cases hz2 : z2 = x
          · rw [if_pos hz2] at h2; cases h2
          · rw [if_neg hz1] at h1
            rw [if_neg hz2] at h2
            exact R.apart _ _ _ _ g hne h1 h2 h3 h4
      · intro z oz g h1 h2 h3
        simp only [State.put] at h1
        by_cases hz : z = x
        · rw [if_pos hz] at h1; cases h1
        · rw [if_neg hz] at h1
          exact R.owner z oz g h1 h2 h3
    | true =>
      cases hp : o.ptr with
      | none =>
        have := (F.null hp).2
        rw [ho] at this; cases this
      | some g =>
        obtain ⟨b, b1, b2, b3, b4⟩ := F.mem g hp
        have hlive : b.live = true := by rw [b2, R.owner x o g e1 ho hp]; rfl
        have hlt : g < s.heap.length := (List.getElem?_eq_some_iff.1 b1).1
        have hf : p.first = true := by rw [← F.own]; exact ho
        have hor : p.origin = some g := by rw [← F.ptr]; exact hp
        have hgone : ∀ g', (if p.first = true ∧ p.origin = some g' then true else t.gone g') =
            if g' = g then true else t.gone g' := by
          intro g'
          rw [hf, hor]
          by_cases h : g' = g
          · simp [h]
          · have h' : ¬ g = g' := fun e => h e.symm
            simp [h, h']
        dsimp only
        rw [b1]
        dsimp only
        rw [if_pos hlive]
        refine .inr ⟨_, _, [], rfl, rfl, ?_⟩
        constructor
        · simp [State.put, Spec.put, R.made]
        · intro g' hg'
          simp only [State.put, List.length_set] at hg'
          simp only [Spec.put]
          rw [hgone, if_neg (by omega)]
          exact R.fresh g' hg'
        · intro z
          simp only [State.put, Spec.put]
          by_cases hz : z = x
          · simp [hz]
          · simp only [if_neg hz]; exact R.none z
        · intro z oz pz h1 h2
          simp only [State.put, Spec.put] at h1 h2
          by_cases hz : z = x
          · rw [if_pos hz] at h1; cases h1
          · rw [if_neg hz] at h1 h2
            obtain ⟨a1, a2, a3, a4, a5⟩ := R.fits z oz pz h1 h2
            refine ⟨a1, a2, a3, ?_, a5⟩
            intro g' hg'
            obtain ⟨c, c1, c2, c3, c4⟩ := a4 g' hg'
            simp only [State.put, Spec.put, hgone]
            by_cases hgg : g' = g
            · subst hgg
              rw [b1] at c1; cases c1
              refine ⟨⟨false, b.cells⟩, by simp [hlt], by simp, c3, c4⟩
            · refine ⟨c, ?_, by rw [if_neg hgg]; exact c2, c3, c4⟩
              rw [List.getElem?_set_ne (fun e => hgg e.symm)]; exact c1
        · intro z1 z2 o1 o2 g' hne h1 h2 h3 h4
          simp only [State.put] at h1 h2
          by_cases hz1 : z1 = x
          · rw [if_pos hz1] at h1; cases h1
          · by_cases hz2 : z2 = x
            · rw [if_pos hz2] at h2; cases h2
            · rw [if_neg hz1] at h1
              rw [if_neg hz2] at h2
              exact R.apart _ _ _ _ g' hne h1 h2 h3 h4
        · intro z oz g' h1 h2 h3
          simp only [State.put] at h1
          by_cases hz : z = x
          · rw [if_pos hz] at h1; cases h1
          · rw [if_neg hz] at h1
            simp only [Spec.put]
            rw [hgone]
            have : g' ≠ g := by
              rintro rfl
              exact (R.apart z x oz o g' hz h1 e1 h3 hp).2 ⟨h2, ho⟩
            rw [if_neg this]
            exact R.owner z oz g' h1 h2 h3

theorem range_iff {o : Obj} {p : Part α} (h : o.size = p.vals.length) (i : Nat) :
    (o.size = 0 ∨ i > o.size - 1) ↔ p.vals.length ≤ i := by omega

theorem same_get {s : State α} {t : Spec α} (R : Rel s t) (x i : Nat) :
    Same (s.step (.get x i)) (t.step (.get x i)) := by
  unfold State.step Spec.step
  dsimp only
  rcases R.cases x with ⟨e1, e2⟩ | ⟨o, p, e1, e2, F⟩
  · rw [e1, e2]; exact .inl ⟨rfl, rfl⟩
  · rw [e1, e2]
    dsimp only
    have hr := range_iff F.size i
    cases hv : p.vals[i]? with
    | none =>
      rw [if_pos (hr.2 (List.getElem?_eq_none_iff.1 hv))]
      exact .inr ⟨s, t, [.outOfRange], rfl, rfl, R⟩
    | some v =>
      rw [if_neg (fun h => by
        have := (List.getElem?_eq_some_iff.1 hv).1
        have := hr.1 h
        omega)]
      obtain ⟨c1, c2⟩ := F.cell hv
      dsimp only
      by_cases hk : t.kept p
      · rw [if_pos hk, c1 hk]
        exact .inr ⟨s, t, [.value v], rfl, rfl, R⟩
      · rw [if_neg hk, c2 hk]
        exact .inl ⟨rfl, rfl⟩

theorem take_drop_set {l : List α} {a n j : Nat} {v : α} :
    (a ≤ j → ((l.set j v).drop a).take n = ((l.drop a).take n).set (j - a) v) ∧
    ((j < a ∨ a + n ≤ j) → ((l.set j v).drop a).take n = (l.drop a).take n) := by
  constructor
  · intro h
    rw [List.drop_set, if_neg (by omega), List.take_set]
  · rintro (h | h)
    · rw [List.drop_set, if_pos h]
    · rw [List.drop_set]
      split
      · rfl
      · rw [List.take_set, List.set_eq_of_length_le (by simp [List.length_take]; omega)]

theorem same_set {s : State α} {t : Spec α} (R : Rel s t) (x i : Nat) (v : α) :
    Same (s.step (.set x i v)) (t.step (.set x i v)) := by
  unfold State.step Spec.step
  dsimp only
  rcases R.cases x with ⟨e1, e2⟩ | ⟨o, p, e1, e2, F⟩
  · rw [e1, e2]; exact .inl ⟨rfl, rfl⟩
  · rw [e1, e2]
    dsimp only
    have hr := range_iff F.size i
    by_cases hi : i < p.vals.length
    · rw [if_pos hi, if_neg (fun h => by have := hr.1 h; omega)]
      cases hp : o.ptr with
      | none =>
        have := (F.null hp).1
        have := F.size
        omega
      | some g =>
        obtain ⟨b, b1, b2, b3, b4⟩ := F.mem g hp
        have hlt : g < s.heap.length := (List.getElem?_eq_some_iff.1 b1).1
        have hor : p.origin = some g := by rw [← F.ptr]; exact hp
        have hk : t.kept p ↔ t.gone g = false := by
          unfold Spec.kept
          rw [hor]
          simp
        have hsz := F.size
        dsimp only
        rw [b1]
        dsimp only
        by_cases hg : t.gone g = false
        · rw [if_pos (hk.2 hg), if_pos ⟨by rw [b2, hg]; rfl, by omega⟩]
          refine .inr ⟨_, _, [], rfl, rfl, ?_⟩
          constructor
          · simp [Spec.put, R.made]
          · intro g' hg'
            simp only [List.length_set] at hg'
            exact R.fresh g' hg'
          · intro z
            simp only [Spec.put]
            by_cases hz : z = x
            · simp [hz, e1]
            · rw [if_neg hz]; exact R.none z
          · intro z oz pz h1 h2
            simp only [Spec.put] at h1 h2
            by_cases hz : z = x
            · subst hz
              rw [if_pos rfl] at h2
              rw [e1] at h1
              cases h1; cases h2
              refine ⟨by simp [F.size], F.ptr, F.own, ?_, F.null⟩
              intro g' hg'
              rw [hp] at hg'; cases hg'
              refine ⟨_, by simp [hlt]; rfl, ?_, by simp; omega, ?_⟩
              · show true = !t.gone g
                rw [hg]; rfl
              · show (((b.cells.set (o.off + i) v).drop o.off).take o.size) = p.vals.set i v
                rw [take_drop_set.1 (by omega), b4, show o.off + i - o.off = i by omega]
            · rw [if_neg hz] at h2
              obtain ⟨a1, a2, a3, a4, a5⟩ := R.fits z oz pz h1 h2
              refine ⟨a1, a2, a3, ?_, a5⟩
              intro g' hg'
              obtain ⟨c, c1, c2, c3, c4⟩ := a4 g' hg'
              by_cases hgg : g' = g
              · subst hgg
                rw [b1] at c1; cases c1
                refine ⟨_, by simp [hlt]; rfl, ?_, by simp; omega, ?_⟩
                · show true = !t.gone g'
                  rw [hg]; rfl
                · show (((b.cells.set (o.off + i) v).drop oz.off).take oz.size) = pz.vals
                  have := (R.apart z x oz o g' hz h1 e1 hg' hp).1
                  rw [take_drop_set.2 (by omega), c4]
              · refine ⟨c, ?_, c2, c3, c4⟩
                rw [List.getElem?_set_ne (fun e => hgg e.symm)]; exact c1
          · exact R.apart
          · exact R.owner
        · rw [if_neg (fun h => hg (hk.1 h)), if_neg (fun h => by
            rw [b2] at h
            exact hg (by simpa using h.1))]
          exact .inl ⟨rfl, rfl⟩
    · rw [if_neg hi, if_pos (hr.2 (by omega))]
      exact .inr ⟨s, t, [.outOfRange], rfl, rfl, R⟩

theorem same_step {s : State α} {t : Spec α} (R : Rel s t) (c : Cmd α) : Same (s.step c) (t.step c) := by
  cases c with
  | read x n rows => exact same_read R x n rows
  | copy x y => exact same_copy R x y
  | move x y => exact same_move R x y
  | destroy x => exact same_destroy R x
  | get x i => exact same_get R x i
  | set x i v => exact same_set R x i v

theorem same_run (cs : List (Cmd α)) : ∀ {s : State α} {t : Spec α}, Rel s t → Same (s.run cs) (t.run cs) := by
  induction cs with
  | nil => intro s t R; exact .inr ⟨s, t, [], rfl, rfl, R⟩
  | cons c cs ih =>
    intro s t R
    unfold State.run Spec.run
    rcases same_step R c with ⟨h1, h2⟩ | ⟨s1, t1, o, h1, h2, R1⟩
    · rw [h1, h2]; exact .inl ⟨rfl, rfl⟩
    · rw [h1, h2]
      simp only [Res.bind_ok]
      rcases ih R1 with ⟨k1, k2⟩ | ⟨s2, t2, o2, k1, k2, R2⟩
      · rw [k1, k2]; exact .inl ⟨rfl, rfl⟩
      · rw [k1, k2]; exact .inr ⟨s2, t2, o ++ o2, rfl, rfl, R2⟩

/-! ## C82 -/

/-- Specification: arrays as independent values, without memory. -/
abbrev Vals (α : Type) := Nat → Option (List α)

/-- Specification: `V` with the value of `x` replaced. -/
def Vals.put (V : Vals α) (x : Nat) (v : Option (List α)) : Vals α := fun y => if y = x then v else V y

/-- Specification: the effect of a command on independent values; `none` if an array is used that does not
exist, or one is created that does. -/
def Vals.step (V : Vals α) : Cmd α → Option (Vals α × List (Obs α))
  | .read x n rows =>
    if (∀ r ∈ rows, r.length = n) ∧ (∀ k < rows.length, V (x + k) = none) then
      some (fun y => if x ≤ y ∧ y < x + rows.length then rows[y - x]? else V y, [])
    else none
  | .copy x y => match V x, V y with
    | none, some v => some (V.put x (some v), [])
    | _, _ => none
  | .move x y => match V x, V y with
    | none, some v => some ((V.put x (some v)).put y (some []), [])
    | _, _ => none
  | .destroy x => match V x with
    | none => none
    | some _ => some (V.put x none, [])
  | .get x i => match V x with
    | none => none
    | some v => match v[i]? with
      | none => some (V, [.outOfRange])
      | some e => some (V, [.value e])
  | .set x i e => match V x with
    | none => none
    | some v => if i < v.length then some (V.put x (some (v.set i e)), []) else some (V, [.outOfRange])

/-- Specification: a sequence of commands on independent values. -/
def Vals.run (V : Vals α) : List (Cmd α) → Option (Vals α × List (Obs α))
  | [] => some (V, [])
  | c :: cs => match V.step c with
    | none => none
    | some (V1, o1) => match Vals.run V1 cs with
      | none => none
      | some (V2, o2) => some (V2, o1 ++ o2)

/-- Specification: the array whose elements a command reads or writes. -/
def Cmd.uses : Cmd α → Option Nat
  | .copy _ y => some y
  | .get x _ => some x
  | .set x _ _ => some x
  | _ => none

/-- Specification: whenever elements of an array are used, the first array of the same read still exists. -/
def Careful (t : Spec α) : List (Cmd α) → Prop
  | [] => True
  | c :: cs => (∀ x p, c.uses = some x → t.parts x = some p → t.kept p) ∧
      ∀ t' o, t.step c = .ok (t', o) → Careful t' cs

theorem vals_step {t : Spec α} {V : Vals α} (hV : ∀ x, V x = (t.parts x).map Part.vals) (c : Cmd α)
    (hc : ∀ x p, c.uses = some x → t.parts x = some p → t.kept p) {V' : Vals α} {o : List (Obs α)}
    (h : V.step c = some (V', o)) :
    ∃ t', t.step c = .ok (t', o) ∧ ∀ x, V' x = (t'.parts x).map Part.vals := by
  have hn : ∀ x, V x = .none ↔ t.parts x = .none := by
    intro x; rw [hV x]; simp
  have hput : ∀ (u : Spec α) (W : Vals α) (y : Nat) (q : Option (Part α)),
      (∀ x, W x = (u.parts x).map Part.vals) →
      ∀ x, (W.put y (q.map Part.vals)) x = ((u.put y q).parts x).map Part.vals := by
    intro u W y q hW x
    unfold Vals.put Spec.put
    dsimp only
    split
    · rfl
    · exact hW x
  cases c with
  | read x n rows =>
    unfold Vals.step at h
    dsimp only at h
    split at h
    · rename_i hcond
      simp only [Option.some.injEq, Prod.mk.injEq] at h
      obtain ⟨rfl, rfl⟩ := h
      have hcond' : (∀ r ∈ rows, r.length = n) ∧ (∀ k < rows.length, t.parts (x + k) = .none) :=
        ⟨hcond.1, fun k hk => (hn _).1 (hcond.2 k hk)⟩
      refine ⟨_, by unfold Spec.step; dsimp only; rw [if_pos hcond'], ?_⟩
      intro y
      dsimp only
      by_cases hy : x ≤ y
      · rw [if_pos hy]
        by_cases hy2 : y < x + rows.length
        · rw [if_pos ⟨hy, hy2⟩, List.getElem?_eq_getElem (show y - x < rows.length by omega)]
          rfl
        · rw [if_neg (fun h => hy2 h.2), List.getElem?_eq_none (show rows.length ≤ y - x by omega)]
          exact hV y
      · rw [if_neg (fun h => hy h.1), if_neg hy]
        exact hV y
    · cases h
  | copy x y =>
    unfold Vals.step at h
    dsimp only at h
    cases hx : V x with
    | some v => rw [hx] at h; cases h
    | none =>
      cases hy : t.parts y with
      | none => rw [hx, (hn y).2 hy] at h; cases h
      | some p =>
        have hvy : V y = some p.vals := by rw [hV y, hy]; rfl
        rw [hx, hvy] at h
        simp only [Option.some.injEq, Prod.mk.injEq] at h
        obtain ⟨rfl, rfl⟩ := h
        have hk := hc y p rfl hy
        refine ⟨_, by unfold Spec.step; dsimp only; rw [(hn x).1 hx, hy]; dsimp only; rw [if_pos (.inr hk)], ?_⟩
        exact hput { t with made := t.made + 1 } V x (some ⟨p.vals, some t.made, true⟩) hV
  | move x y =>
    unfold Vals.step at h
    dsimp only at h
    cases hx : V x with
    | some v => rw [hx] at h; cases h
    | none =>
      cases hy : t.parts y with
      | none => rw [hx, (hn y).2 hy] at h; cases h
      | some p =>
        have hvy : V y = some p.vals := by rw [hV y, hy]; rfl
        rw [hx, hvy] at h
        simp only [Option.some.injEq, Prod.mk.injEq] at h
        obtain ⟨rfl, rfl⟩ := h
        refine ⟨_, by unfold Spec.step; dsimp only; rw [(hn x).1 hx, hy], ?_⟩
        exact hput _ _ y (some ⟨[], .none, false⟩) (hput t V x (some p) hV)
  | destroy x =>
    unfold Vals.step at h
    dsimp only at h
    cases hx : t.parts x with
    | none => rw [(hn x).2 hx] at h; cases h
    | some p =>
      have hvx : V x = some p.vals := by rw [hV x, hx]; rfl
      rw [hvx] at h
      simp only [Option.some.injEq, Prod.mk.injEq] at h
      obtain ⟨rfl, rfl⟩ := h
      refine ⟨_, by unfold Spec.step; dsimp only; rw [hx], ?_⟩
      exact hput { t with gone := _ } V x .none hV
  | get x i =>
    unfold Vals.step at h
    dsimp only at h
    cases hx : t.parts x with
    | none => rw [(hn x).2 hx] at h; cases h
    | some p =>
      have hvx : V x = some p.vals := by rw [hV x, hx]; rfl
      have hk := hc x p rfl hx
      rw [hvx] at h
      dsimp only at h
      unfold Spec.step
      dsimp only
      rw [hx]
      dsimp only
      cases hv : p.vals[i]? with
      | none =>
        rw [hv] at h
        simp only [Option.some.injEq, Prod.mk.injEq] at h
        obtain ⟨rfl, rfl⟩ := h
        exact ⟨t, rfl, hV⟩
      | some e =>
        rw [hv] at h
        simp only [Option.some.injEq, Prod.mk.injEq] at h
        obtain ⟨rfl, rfl⟩ := h
        dsimp only
        rw [if_pos hk]
        exact ⟨t, rfl, hV⟩
  | set x i e =>
    unfold Vals.step at h
    dsimp only at h
    cases hx : t.parts x with
    | none => rw [(hn x).2 hx] at h; cases h
    | some p =>
      have hvx : V x = some p.vals := by rw [hV x, hx]; rfl
      have hk := hc x p rfl hx
      rw [hvx] at h
      dsimp only at h
      unfold Spec.step
      dsimp only
      rw [hx]
      dsimp only
      split at h
      · rename_i hi
        simp only [Option.some.injEq, Prod.mk.injEq] at h
        obtain ⟨rfl, rfl⟩ := h
        rw [if_pos hi, if_pos hk]
        exact ⟨_, rfl, hput t V x (some { p with vals := p.vals.set i e }) hV⟩
      · rename_i hi
        simp only [Option.some.injEq, Prod.mk.injEq] at h
        obtain ⟨rfl, rfl⟩ := h
        rw [if_neg hi]
        exact ⟨t, rfl, hV⟩

theorem vals_run (cs : List (Cmd α)) : ∀ {t : Spec α} {V : Vals α}, (∀ x, V x = (t.parts x).map Part.vals) →
    Careful t cs → ∀ {V' : Vals α} {o : List (Obs α)}, V.run cs = some (V', o) →
    ∃ t', t.run cs = .ok (t', o) ∧ ∀ x, V' x = (t'.parts x).map Part.vals := by
  induction cs with
  | nil =>
    intro t V hV _ V' o h
    simp only [Vals.run, Option.some.injEq, Prod.mk.injEq] at h
    obtain ⟨rfl, rfl⟩ := h
    exact ⟨t, rfl, hV⟩
  | cons c cs ih =>
    intro t V hV hc V' o h
    unfold Vals.run at h
    cases h1 : V.step c with
    | none => rw [h1] at h; cases h
    | some r =>
      obtain ⟨V1, o1⟩ := r
      rw [h1] at h
      dsimp only at h
      cases h2 : Vals.run V1 cs with
      | none => rw [h2] at h; cases h
      | some r =>
        obtain ⟨V2, o2⟩ := r
        rw [h2] at h
        simp only [Option.some.injEq, Prod.mk.injEq] at h
        obtain ⟨rfl, rfl⟩ := h
        obtain ⟨t1, s1, s2⟩ := vals_step hV c hc.1 h1
        obtain ⟨t2, s3, s4⟩ := ih s2 (hc.2 _ _ s1) h2
        refine ⟨t2, ?_, s4⟩
        unfold Spec.run
        rw [s1]
        simp only [Res.bind_ok]
        rw [s3]
        rfl

/-- C82. What a program sees of the arrays is exactly what the specification says: the arrays have the values of
their time steps, and using an element is undefined exactly if the first array of the same read is gone (or an
array is used that does not exist). -/
theorem c82_exact (cs : List (Cmd α)) :
    seen ((State.init : State α).run cs) = seen ((Spec.init : Spec α).run cs) := by
  rcases same_run cs (Rel.init (α := α)) with ⟨h1, h2⟩ | ⟨s, t, o, h1, h2, _⟩
  · rw [h1, h2]; rfl
  · rw [h1, h2]; rfl

/-- C82. If the first array of a read exists whenever elements of the other arrays of that read are used, then
the arrays of all reads and their copies behave as independent values. Missing: uses after the first array is gone
(`c82_first_dropped`). -/
theorem c82_values_partial (cs : List (Cmd α)) (hc : Careful Spec.init cs) (V : Vals α) (o : List (Obs α))
    (h : Vals.run (fun _ => none) cs = some (V, o)) : seen ((State.init : State α).run cs) = .ok o := by
  rw [c82_exact]
  obtain ⟨t, t1, _⟩ := vals_run cs (t := Spec.init) (V := fun _ => none) (fun _ => rfl) hc h
  rw [t1]
  rfl

theorem run_append (cs ds : List (Cmd α)) : ∀ {t t1 : Spec α} {o : List (Obs α)}, t.run cs = .ok (t1, o) →
    t1.run ds = .ub → t.run (cs ++ ds) = .ub := by
  induction cs with
  | nil =>
    intro t t1 o h h2
    simp only [Spec.run, Res.ok.injEq, Prod.mk.injEq] at h
    rw [h.1]; exact h2
  | cons c cs ih =>
    intro t t1 o h h2
    unfold Spec.run at h
    rw [List.cons_append]
    unfold Spec.run
    cases h3 : t.step c with
    | ok r =>
      obtain ⟨u, o1⟩ := r
      rw [h3] at h
      simp only [Res.bind_ok] at h
      cases h4 : u.run cs with
      | ok r =>
        obtain ⟨u2, o2⟩ := r
        rw [h4] at h
        simp only [Res.bind_ok, Res.ok.injEq, Prod.mk.injEq] at h
        simp only [Res.bind_ok]
        rw [ih h4 (h.1 ▸ h2)]
        rfl
      | err => rw [h4] at h; cases h
      | ub => rw [h4] at h; cases h
      | abort => rw [h4] at h; cases h
    | err => rw [h3] at h; cases h
    | ub => rw [h3] at h; cases h
    | abort => rw [h3] at h; cases h

/-- C82, violation, after any history: if the first array of a read is dropped and another array `y` of that
read is kept, using an element of `y` is undefined: the memory has been freed. -/
theorem c82_first_dropped (cs : List (Cmd α)) (t : Spec α) (o : List (Obs α)) (h : Spec.init.run cs = .ok (t, o))
    (x y i g : Nat) (p q : Part α) (hx : t.parts x = some p) (h1 : p.first = true) (h2 : p.origin = some g)
    (hne : y ≠ x) (hy : t.parts y = some q) (h3 : q.origin = some g) (hi : i < q.vals.length) :
    (State.init : State α).run (cs ++ [.destroy x, .get y i]) = .ub := by
  have hspec : (Spec.init : Spec α).run (cs ++ [.destroy x, .get y i]) = .ub := by
    refine run_append cs _ h ?_
    obtain ⟨u, e1, u1, u2⟩ : ∃ u, t.step (.destroy x) = .ok (u, []) ∧ u.parts y = t.parts y ∧ u.gone g = true := by
      refine ⟨_, by unfold Spec.step; dsimp only; rw [hx], ?_, ?_⟩
      · dsimp only [Spec.put]
        rw [if_neg hne]
      · dsimp only [Spec.put]
        rw [if_pos ⟨h1, h2⟩]
    have e2 : u.step (.get y i) = .ub := by
      unfold Spec.step
      dsimp only
      rw [u1, hy]
      dsimp only
      rw [List.getElem?_eq_getElem hi]
      dsimp only
      rw [if_neg]
      intro hk
      have := hk g h3
      rw [u2] at this
      cases this
    unfold Spec.run
    rw [e1]
    simp only [Res.bind_ok]
    unfold Spec.run
    rw [e2]
    rfl
  rcases same_run (cs ++ [.destroy x, .get y i]) (Rel.init (α := α)) with ⟨k1, _⟩ | ⟨s, t, o, _, k2, _⟩
  · exact k1
  · rw [hspec] at k2; cases k2

/-- C82, violation as it looks in a program: `x = binout.read("nodout/x_displacement")[k]` with `k > 0` in
Python drops the list and with it the first array; every use of an element of `x` is undefined. -/
theorem c82_list_dropped (x n k i : Nat) (rows : List (List α)) (hn : ∀ r ∈ rows, r.length = n) (h0 : 0 < k)
    (hk : k < rows.length) (hi : i < n) :
    (State.init : State α).run [.read x n rows, .destroy x, .get (x + k) i] = .ub := by
  have hr : rows[k]? = some rows[k] := List.getElem?_eq_getElem hk
  have hr0 : rows[0]? = some rows[0] := List.getElem?_eq_getElem (by omega)
  have hlen : rows[k].length = n := hn _ (List.getElem_mem hk)
  have e1 : (Spec.init : Spec α).run [.read x n rows] = .ok ({ made := 1, gone := fun _ => false, parts := fun y =>
        if x ≤ y then
          match rows[y - x]? with
          | some r => some ⟨r, some 0, y == x⟩
          | .none => .none
        else .none }, []) := by
    unfold Spec.run Spec.step
    dsimp only
    rw [if_pos ⟨hn, fun _ _ => rfl⟩]
    rfl
  refine c82_first_dropped [.read x n rows] _ _ e1 x (x + k) i 0 ⟨rows[0], some 0, true⟩ ⟨rows[k], some 0, false⟩ ?_ rfl rfl
    (by omega) ?_ rfl (by dsimp only; omega)
  · dsimp only
    rw [if_pos (Nat.le_refl x), Nat.sub_self, hr0]
    simp
  · dsimp only
    rw [if_pos (by omega), show x + k - x = k by omega, hr]
    have : (x + k == x) = false := by simp; omega
    simp [this]

/-- Auxiliary: every block that has not been freed has an owner. -/
def Owned (s : State α) : Prop := ∀ g b, s.heap[g]? = some b → b.live = true →
  ∃ x o, s.objs x = some o ∧ o.own = true ∧ o.ptr = some g

theorem owned_step {s s' : State α} {t : Spec α} (R : Rel s t) (h : Owned s) {c : Cmd α} {o : List (Obs α)}
    (hc : ∀ x n, c ≠ .read x n []) (hs : s.step c = .ok (s', o)) : Owned s' := by
  cases c with
  | read x n rows =>
    unfold State.step at hs
    dsimp only at hs
    split at hs
    · rename_i hcond
      simp only [Res.ok.injEq, Prod.mk.injEq] at hs
      obtain ⟨rfl, rfl⟩ := hs
      have hpos : 0 < rows.length := List.length_pos_iff.2 (fun e => hc x n (by rw [e]))
      intro g b hg hb
      dsimp only at hg ⊢
      by_cases hlt : g < s.heap.length
      · rw [List.getElem?_append_left hlt] at hg
        obtain ⟨y, oy, y1, y2, y3⟩ := h g b hg hb
        refine ⟨y, oy, ?_, y2, y3⟩
        have : ¬ (x ≤ y ∧ y < x + rows.length) := by
          rintro ⟨h1, h2⟩
          have := hcond.2 (y - x) (by omega)
          rw [show x + (y - x) = y by omega, y1] at this
          cases this
        unfold rowObj
        rw [if_neg this]
        exact y1
      · have hgl : g = s.heap.length := by
          have := (List.getElem?_eq_some_iff.1 hg).1
          simp at this
          omega
        subst hgl
        refine ⟨x, ⟨some s.heap.length, 0, n, true⟩, ?_, rfl, rfl⟩
        unfold rowObj
        rw [if_pos ⟨Nat.le_refl x, by omega⟩]
        simp
    · cases hs
  | copy x y =>
    unfold State.step at hs
    dsimp only at hs
    cases hx : s.objs x with
    | some _ => rw [hx] at hs; cases hs
    | none =>
      cases hy : s.objs y with
      | none => rw [hx, hy] at hs; cases hs
      | some oy =>
        rw [hx, hy] at hs
        dsimp only at hs
        cases hcl : s.cells oy oy.size 0 with
        | err => rw [hcl] at hs; cases hs
        | ub => rw [hcl] at hs; cases hs
        | abort => rw [hcl] at hs; cases hs
        | ok cl =>
          rw [hcl] at hs
          simp only [Res.bind_ok, Res.ok.injEq, Prod.mk.injEq] at hs
          obtain ⟨rfl, rfl⟩ := hs
          intro g b hg hb
          simp only [State.put] at hg ⊢
          by_cases hlt : g < s.heap.length
          · rw [List.getElem?_append_left hlt] at hg
            obtain ⟨z, oz, z1, z2, z3⟩ := h g b hg hb
            refine ⟨z, oz, ?_, z2, z3⟩
            rw [if_neg (fun e => by rw [e, hx] at z1; cases z1)]
            exact z1
          · have hgl : g = s.heap.length := by
              have := (List.getElem?_eq_some_iff.1 hg).1
              simp at this
              omega
            subst hgl
            exact ⟨x, _, if_pos rfl, rfl, rfl⟩
  | move x y =>
    unfold State.step at hs
    dsimp only at hs
    cases hx : s.objs x with
    | some _ => rw [hx] at hs; cases hs
    | none =>
      cases hy : s.objs y with
      | none => rw [hx, hy] at hs; cases hs
      | some oy =>
        rw [hx, hy] at hs
        simp only [Res.ok.injEq, Prod.mk.injEq] at hs
        obtain ⟨rfl, rfl⟩ := hs
        have hxy : x ≠ y := by rintro rfl; rw [hx] at hy; cases hy
        intro g b hg hb
        obtain ⟨z, oz, z1, z2, z3⟩ := h g b hg hb
        simp only [State.put]
        by_cases hz : z = y
        · subst hz
          rw [hy] at z1; cases z1
          exact ⟨x, oy, by simp [hxy], z2, z3⟩
        · refine ⟨z, oz, ?_, z2, z3⟩
          rw [if_neg hz, if_neg (fun e => by rw [e, hx] at z1; cases z1)]
          exact z1
  | destroy x =>
    unfold State.step at hs
    dsimp only at hs
    rcases R.cases x with ⟨e1, e2⟩ | ⟨ox, p, e1, e2, F⟩
    · rw [e1] at hs; cases hs
    · rw [e1] at hs
      dsimp only at hs
      cases ho : ox.own with
      | false =>
        rw [ho] at hs
        simp only [Res.ok.injEq, Prod.mk.injEq] at hs
        obtain ⟨rfl, rfl⟩ := hs
        intro g b hg hb
        obtain ⟨z, oz, z1, z2, z3⟩ := h g b hg hb
        refine ⟨z, oz, ?_, z2, z3⟩
        simp only [State.put]
        rw [if_neg (fun e => by rw [e, e1] at z1; cases z1; rw [ho] at z2; cases z2)]
        exact z1
      | true =>
        cases hp : ox.ptr with
        | none =>
          have := (F.null hp).2
          rw [ho] at this; cases this
        | some gx =>
          obtain ⟨bx, b1, b2, _⟩ := F.mem gx hp
          rw [ho, hp] at hs
          dsimp only at hs
          rw [b1] at hs
          dsimp only at hs
          rw [if_pos (by rw [b2, R.owner x ox gx e1 ho hp]; rfl)] at hs
          simp only [Res.ok.injEq, Prod.mk.injEq] at hs
          obtain ⟨rfl, rfl⟩ := hs
          intro g b hg hb
          simp only [State.put] at hg ⊢
          by_cases hgg : g = gx
          · subst hgg
            rw [List.getElem?_set_self (List.getElem?_eq_some_iff.1 b1).1] at hg
            cases hg
            cases hb
          · rw [List.getElem?_set_ne (fun e => hgg e.symm)] at hg
            obtain ⟨z, oz, z1, z2, z3⟩ := h g b hg hb
            refine ⟨z, oz, ?_, z2, z3⟩
            rw [if_neg (fun e => by
              rw [e, e1] at z1; cases z1
              rw [hp] at z3; cases z3
              exact hgg rfl)]
            exact z1
  | get x i =>
    unfold State.step at hs
    dsimp only at hs
    cases hx : s.objs x with
    | none => rw [hx] at hs; cases hs
    | some ox =>
      rw [hx] at hs
      dsimp only at hs
      split at hs
      · simp only [Res.ok.injEq, Prod.mk.injEq] at hs
        obtain ⟨rfl, rfl⟩ := hs
        exact h
      · cases hcl : s.cell ox i with
        | err => rw [hcl] at hs; cases hs
        | ub => rw [hcl] at hs; cases hs
        | abort => rw [hcl] at hs; cases hs
        | ok v =>
          rw [hcl] at hs
          have : s = s' := by
            have := Res.ok.inj hs
            exact (Prod.mk.inj this).1
          rw [← this]
          exact h
  | set x i v =>
    unfold State.step at hs
    dsimp only at hs
    cases hx : s.objs x with
    | none => rw [hx] at hs; cases hs
    | some ox =>
      rw [hx] at hs
      dsimp only at hs
      split at hs
      · simp only [Res.ok.injEq, Prod.mk.injEq] at hs
        obtain ⟨rfl, rfl⟩ := hs
        exact h
      · cases hp : ox.ptr with
        | none => rw [hp] at hs; cases hs
        | some gx =>
          rw [hp] at hs
          dsimp only at hs
          cases hb : s.heap[gx]? with
          | none => rw [hb] at hs; cases hs
          | some bx =>
            rw [hb] at hs
            dsimp only at hs
            split at hs
            · rename_i hcond
              simp only [Res.ok.injEq, Prod.mk.injEq] at hs
              obtain ⟨rfl, rfl⟩ := hs
              intro g b hg hl
              dsimp only at hg ⊢
              by_cases hgg : g = gx
              · subst hgg
                exact h g bx hb hcond.1
              · rw [List.getElem?_set_ne (fun e => hgg e.symm)] at hg
                exact h g b hg hl
            · cases hs

/-- C82. No memory is lost: when all arrays are gone, all blocks have been freed (if every read has returned at
least one time step). -/
theorem c82_no_leak (cs : List (Cmd α)) (hc : ∀ x n, Cmd.read x n [] ∉ cs) (s : State α) (o : List (Obs α))
    (h : (State.init : State α).run cs = .ok (s, o)) (hend : ∀ x, s.objs x = none) : ∀ b ∈ s.heap, b.live = false := by
  have key : ∀ (cs : List (Cmd α)) (s0 : State α) (t0 : Spec α), Rel s0 t0 → Owned s0 → (∀ x n, Cmd.read x n [] ∉ cs) →
      ∀ s o, s0.run cs = .ok (s, o) → Owned s := by
    intro cs
    induction cs with
    | nil =>
      intro s0 t0 _ h0 _ s o h
      simp only [State.run, Res.ok.injEq, Prod.mk.injEq] at h
      rw [← h.1]; exact h0
    | cons c cs ih =>
      intro s0 t0 R h0 hc s o h
      unfold State.run at h
      rcases same_step R c with ⟨h1, _⟩ | ⟨s1, t1, o1, h1, _, R1⟩
      · rw [h1] at h; cases h
      · rw [h1] at h
        simp only [Res.bind_ok] at h
        have hO := owned_step R h0 (fun x n e => hc x n (by rw [e]; simp)) h1
        cases h2 : s1.run cs with
        | err => rw [h2] at h; cases h
        | ub => rw [h2] at h; cases h
        | abort => rw [h2] at h; cases h
        | ok r =>
          obtain ⟨s2, o2⟩ := r
          rw [h2] at h
          simp only [Res.bind_ok, Res.ok.injEq, Prod.mk.injEq] at h
          rw [← h.1]
          exact ih s1 t1 R1 hO (fun x n hm => hc x n (by simp [hm])) s2 o2 h2
  have hO := key cs State.init Spec.init Rel.init (fun g b hg => by simp [State.init] at hg) hc s o h
  intro b hb
  obtain ⟨g, hg⟩ := List.mem_iff_getElem?.1 hb
  cases hl : b.live with
  | false => rfl
  | true =>
    obtain ⟨x, ox, x1, _⟩ := hO g b hg hl
    rw [hend x] at x1; cases x1

/-- C82, violation: the block of a read without time steps is never freed. -/
theorem c82_no_steps_leaks : ∃ s : State Nat, (State.init : State Nat).run [.read 0 3 []] = .ok (s, []) ∧
    (∀ x, s.objs x = none) ∧ ∃ b ∈ s.heap, b.live = true := by
  refine ⟨_, rfl, fun x => ?_, ?_⟩
  · simp [rowObj, State.init]
  · exact ⟨⟨true, []⟩, by simp, rfl⟩

/-- A history with two reads, a copy, a write and drops in which the first arrays are kept. -/
example : Vals.run (fun _ => none) [.read 0 2 [[1, 2], [3, 4], [5, 6]], .copy 7 1, .set 1 0 9, .get 1 0, .get 7 0, .get 2 5,
      .destroy 1, .move 8 0, .get 2 1, .destroy 2, .destroy 8] =
    some ((Vals.run (fun _ => none) [.read 0 2 [[1, 2], [3, 4], [5, 6]], .copy 7 1, .set 1 0 9, .get 1 0, .get 7 0,
      .get 2 5, .destroy 1, .move 8 0, .get 2 1, .destroy 2, .destroy 8]).get (by decide +kernel) |>.1,
      [.value 9, .value 3, .outOfRange, .value 6]) := by
  rfl

example : seen ((State.init : State Nat).run [.read 0 2 [[1, 2], [3, 4], [5, 6]], .copy 7 1, .set 1 0 9, .get 1 0, .get 7 0,
      .get 2 5, .destroy 1, .move 8 0, .get 2 1, .destroy 2, .destroy 8, .get 7 1]) =
    .ok [.value 9, .value 3, .outOfRange, .value 6, .value 4] ∧
    seen ((State.init : State Nat).run [.read 0 2 [[1, 2], [3, 4], [5, 6]], .destroy 0, .get 1 1]) = .ub := by
  decide +kernel

end Dyna.Rows
