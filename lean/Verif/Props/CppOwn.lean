import Verif.CppOwn
/-!
# Property C58: arrays of the C++ interface as values, ownership of their memory
-/

namespace Dyna.Cpp

open Dyna

/-- The object holds exactly the value `v`, in a live block. -/
def Good {α : Type} (h : List (Block α)) (o : Obj) (v : List (Option α)) : Prop :=
  o.size = v.length ∧
  (o.ptr = none → v = []) ∧
  ∀ p, o.ptr = some p → ∃ f, h[p]? = some ⟨true, f, v⟩ ∧ (o.own = true → f = false)

/-- Relation of an object and its value. -/
def GoodO {α : Type} (h : List (Block α)) : Option Obj → Option (List (Option α)) → Prop
  | none, none => True
  | some o, some v => Good h o v
  | _, _ => False

/-- Invariant: every object holds its value, no two objects share a block. -/
structure Rel {α : Type} (s : Own α) (V : Vals α) : Prop where
  good : ∀ x, GoodO s.heap (s.objs x) (V x)
  inj : ∀ x y o o' p, s.objs x = some o → s.objs y = some o' → o.ptr = some p →
    o'.ptr = some p → x = y

theorem Good.frame {α : Type} {h h' : List (Block α)} {o : Obj} {v : List (Option α)}
    (g : Good h o v) (hf : ∀ p, o.ptr = some p → h'[p]? = h[p]?) : Good h' o v :=
  ⟨g.1, g.2.1, fun p hp => by rw [hf p hp]; exact g.2.2 p hp⟩

theorem GoodO.frame {α : Type} {h h' : List (Block α)} {o : Option Obj}
    {v : Option (List (Option α))}
    (g : GoodO h o v) (hf : ∀ o', o = some o' → ∀ p, o'.ptr = some p → h'[p]? = h[p]?) :
    GoodO h' o v := by
  cases o with
  | none => cases v <;> exact g
  | some o =>
    cases v with
    | none => exact g
    | some v => exact Good.frame g (hf o rfl)

theorem Rel.obj {α : Type} {s : Own α} {V : Vals α} (r : Rel s V) {x : Nat}
    {v : List (Option α)} (h : V x = some v) : ∃ o, s.objs x = some o ∧ Good s.heap o v := by
  have := r.good x
  rw [h] at this
  cases ho : s.objs x with
  | none => rw [ho] at this; exact this.elim
  | some o => rw [ho] at this; exact ⟨o, rfl, this⟩

theorem Rel.dead {α : Type} {s : Own α} {V : Vals α} (r : Rel s V) {x : Nat}
    (h : V x = none) : s.objs x = none := by
  have := r.good x
  rw [h] at this
  cases ho : s.objs x with
  | none => rfl
  | some o => rw [ho] at this; exact this.elim

theorem Rel.lt {α : Type} {s : Own α} {V : Vals α} (r : Rel s V) {x p : Nat} {o : Obj}
    (h : s.objs x = some o) (hp : o.ptr = some p) : p < s.heap.length := by
  have := r.good x
  rw [h] at this
  cases hv : V x with
  | none => rw [hv] at this; exact this.elim
  | some v =>
    rw [hv] at this
    obtain ⟨f, h1, _⟩ := this.2.2 p hp
    exact (List.getElem?_eq_some_iff.1 h1).1

/-- Replacing the object `x` by one that holds `v` in a block that no other object uses, while
the blocks of the others stay as they are. -/
theorem Rel.replace {α : Type} {s : Own α} {V : Vals α} (r : Rel s V) (h' : List (Block α))
    (x : Nat) (o : Obj) (v : List (Option α)) (g : Good h' o v)
    (hf : ∀ y o' p, y ≠ x → s.objs y = some o' → o'.ptr = some p →
      h'[p]? = s.heap[p]? ∧ o.ptr ≠ some p) :
    Rel ((Own.mk h' s.objs).put x (some o)) (V.put x (some v)) := by
  refine ⟨fun y => ?_, fun y z a b p ha hb hap hbp => ?_⟩
  · by_cases hy : y = x
    · subst hy; simpa [Own.put, Vals.put, GoodO] using g
    · simp only [Own.put, Vals.put, hy, if_false]
      exact GoodO.frame (r.good y) fun o' ho p hp => (hf y o' p hy ho hp).1
  · simp only [Own.put] at ha hb
    by_cases hy : y = x <;> by_cases hz : z = x
    · rw [hy, hz]
    · rw [if_pos hy] at ha
      rw [if_neg hz] at hb
      cases ha
      exact absurd hap (hf z b p hz hb hbp).2
    · rw [if_neg hy] at ha
      rw [if_pos hz] at hb
      cases hb
      exact absurd hbp (hf y a p hy ha hap).2
    · rw [if_neg hy] at ha
      rw [if_neg hz] at hb
      exact r.inj y z a b p ha hb hap hbp

theorem Rel.put_fresh {α : Type} {s : Own α} {V : Vals α} (r : Rel s V) (x : Nat) (f own : Bool)
    (v : List (Option α)) (hfo : own = true → f = false) :
    Rel ((Own.mk (s.heap ++ [⟨true, f, v⟩]) s.objs).put x
      (some ⟨some s.heap.length, v.length, own⟩)) (V.put x (some v)) := by
  refine r.replace _ x _ v ⟨rfl, fun h => by simp at h, fun p hp => ?_⟩ fun y o' p _ ho hp => ?_
  · cases hp
    exact ⟨f, by simp, hfo⟩
  · have := r.lt ho hp
    refine ⟨List.getElem?_append_left this, fun e => ?_⟩
    cases e
    omega

theorem load_good {α : Type} {h : List (Block α)} {o : Obj} {v : List (Option α)}
    (g : Good h o v) (objs : Nat → Option Obj) : (Own.mk h objs).load o.ptr o.size = .ok v := by
  unfold Own.load
  by_cases h0 : o.size = 0
  · have : v = [] := List.length_eq_zero_iff.1 (g.1 ▸ h0)
    simp [h0, this]
  · rw [if_neg h0]
    cases hp : o.ptr with
    | none => exact absurd (by rw [g.1, g.2.1 hp]; rfl) h0
    | some p =>
      obtain ⟨f, h1, _⟩ := g.2.2 p hp
      simp only [h1, g.1, Nat.le_refl, if_true, List.take_length]

theorem Rel.copyTo {α : Type} {s : Own α} {V : Vals α} (r : Rel s V) (x y : Nat) (o : Obj)
    (v : List (Option α)) (ho : s.objs y = some o) (g : Good s.heap o v) :
    (∃ s', s.copyTo x o false = .ok s' ∧ Rel s' (V.put x (some v))) ∧
    (∃ s', s.copyTo x o true = .ok s' ∧
      Rel s' (V.put x (some (List.replicate v.length none)))) := by
  have key : ∀ w : List (Option α), w.length = o.size →
      Rel ((Own.mk ((s.heap ++ [Block.mk true false (List.replicate o.size none)]).set s.heap.length
        ⟨true, false, w⟩) s.objs).put x (some ⟨some s.heap.length, o.size, true⟩))
        (V.put x (some w)) := by
    intro w hw
    have := r.put_fresh x false true w (fun _ => rfl)
    rw [hw] at this
    simpa using this
  constructor
  · have hl : (Own.mk (s.heap ++ [⟨true, false, List.replicate o.size none⟩]) s.objs).load
        o.ptr o.size = .ok v := by
      refine load_good (Good.frame g fun p hp => ?_) _
      exact List.getElem?_append_left (r.lt ho hp)
    refine ⟨_, ?_, key v g.1.symm⟩
    simp only [Own.copyTo, Own.alloc, Bool.false_eq_true, if_false, hl]
  · have hl : (Own.mk (s.heap ++ [⟨true, false, List.replicate o.size none⟩]) s.objs).load
        (some s.heap.length) o.size = .ok (List.replicate o.size none) := by
      unfold Own.load
      by_cases h0 : o.size = 0
      · simp [h0]
      · simp [h0]
    rw [← g.1]
    refine ⟨_, ?_, key (List.replicate o.size none) (by simp)⟩
    simp only [Own.copyTo, Own.alloc, if_true, hl]

theorem Rel.moveTo {α : Type} {s : Own α} {V : Vals α} (r : Rel s V) (x y : Nat) (o : Obj)
    (v : List (Option α)) (ho : s.objs y = some o) (g : Good s.heap o v) :
    Rel (s.moveTo x y o) ((V.put x (some v)).put y (some [])) := by
  refine ⟨fun z => ?_, fun z w a b p ha hb hap hbp => ?_⟩
  · simp only [Own.moveTo, Own.put, Vals.put]
    by_cases hz : z = y
    · rw [if_pos hz, if_pos hz]
      exact ⟨rfl, fun _ => rfl, fun p hp => by simp at hp⟩
    · rw [if_neg hz, if_neg hz]
      by_cases hx : z = x
      · rw [if_pos hx, if_pos hx]; exact g
      · rw [if_neg hx, if_neg hx]; exact r.good z
  · simp only [Own.moveTo, Own.put] at ha hb
    have hz : z ≠ y := fun e => by rw [if_pos e] at ha; cases ha; cases hap
    have hw : w ≠ y := fun e => by rw [if_pos e] at hb; cases hb; cases hbp
    rw [if_neg hz] at ha
    rw [if_neg hw] at hb
    by_cases hzx : z = x <;> by_cases hwx : w = x
    · rw [hzx, hwx]
    · rw [if_pos hzx] at ha
      rw [if_neg hwx] at hb
      cases ha
      exact absurd (r.inj w y b o p hb ho hbp hap) hw
    · rw [if_neg hzx] at ha
      rw [if_pos hwx] at hb
      cases hb
      exact absurd (r.inj z y a o p ha ho hap hbp) hz
    · rw [if_neg hzx] at ha
      rw [if_neg hwx] at hb
      exact r.inj z w a b p ha hb hap hbp

theorem Rel.drop {α : Type} {s : Own α} {V : Vals α} (r : Rel s V) (h' : List (Block α))
    (x : Nat) (hf : ∀ y o' p, y ≠ x → s.objs y = some o' → o'.ptr = some p →
      h'[p]? = s.heap[p]?) :
    Rel ((Own.mk h' s.objs).put x none) (V.put x none) := by
  refine ⟨fun y => ?_, fun y z a b p ha hb hap hbp => ?_⟩
  · by_cases hy : y = x
    · subst hy; simp [Own.put, Vals.put, GoodO]
    · simp only [Own.put, Vals.put, hy, if_false]
      exact GoodO.frame (r.good y) fun o' ho p hp => hf y o' p hy ho hp
  · simp only [Own.put] at ha hb
    have hy : y ≠ x := fun e => by rw [if_pos e] at ha; cases ha
    have hz : z ≠ x := fun e => by rw [if_pos e] at hb; cases hb
    rw [if_neg hy] at ha
    rw [if_neg hz] at hb
    exact r.inj y z a b p ha hb hap hbp

theorem Rel.destroy {α : Type} {s : Own α} {V : Vals α} (r : Rel s V) (x : Nat) (o : Obj)
    (v : List (Option α)) (ho : s.objs x = some o) (g : Good s.heap o v) :
    ∃ s', s.destroy x o = .ok s' ∧ Rel s' (V.put x none) := by
  unfold Own.destroy
  cases hown : o.own with
  | false => exact ⟨_, rfl, r.drop s.heap x fun _ _ _ _ _ _ => rfl⟩
  | true =>
    cases hp : o.ptr with
    | none => exact ⟨_, rfl, r.drop s.heap x fun _ _ _ _ _ _ => rfl⟩
    | some p =>
      obtain ⟨f, h1, h2⟩ := g.2.2 p hp
      cases h2 hown
      refine ⟨_, by simp only [Own.free, h1, Res.bind_ok]; rfl, ?_⟩
      refine r.drop _ x fun y o' q hy ho' hq => ?_
      have : p ≠ q := fun e => hy (r.inj y x o' o q ho' ho hq (e ▸ hp))
      simp [this]

theorem Rel.write {α : Type} {s : Own α} {V : Vals α} (r : Rel s V) (x i : Nat) (w : α) (o : Obj)
    (v : List (Option α)) (ho : s.objs x = some o) (g : Good s.heap o v) (hv : V x = some v) :
    ∃ s', s.write o i w = .ok s' ∧ Rel s' (V.put x (some (v.set i (some w)))) := by
  unfold Own.write
  by_cases hi : o.size = 0 ∨ i > o.size - 1
  · rw [if_pos hi]
    refine ⟨_, rfl, ?_⟩
    have h0 : v.set i (some w) = v := List.set_eq_of_length_le (by rw [← g.1]; omega)
    rw [h0]
    have : V.put x (some v) = V := by
      funext y
      unfold Vals.put
      split
      · next e => rw [e, hv]
      · rfl
    rw [this]
    exact r
  · rw [if_neg hi]
    cases hp : o.ptr with
    | none => exact absurd (by rw [g.1, g.2.1 hp]; rfl) (fun e => hi (Or.inl e))
    | some p =>
      obtain ⟨f, h1, h2⟩ := g.2.2 p hp
      have hil : i < v.length := by rw [← g.1]; omega
      simp only [h1, hil, if_true]
      have hlt := (List.getElem?_eq_some_iff.1 h1).1
      have := r.replace (s.heap.set p ⟨true, f, v.set i (some w)⟩) x o (v.set i (some w))
        ⟨by rw [g.1]; simp, fun e => by rw [hp] at e; simp at e, fun q hq => by
          rw [hp] at hq
          cases hq
          exact ⟨f, by simp [hlt], h2⟩⟩
        (fun y o' q hy ho' hq => by
          have : p ≠ q := fun e => hy (r.inj y x o' o q ho' ho hq (e ▸ hp))
          exact ⟨by simp [this], fun e => this (by rw [hp] at e; cases e; rfl)⟩)
      refine ⟨_, rfl, ?_⟩
      have he : (Own.mk (s.heap.set p ⟨true, f, v.set i (some w)⟩) s.objs).put x (some o) =
          Own.mk (s.heap.set p ⟨true, f, v.set i (some w)⟩) s.objs := by
        unfold Own.put
        congr 1
        funext y
        simp only
        split
        · next e => rw [e, ho]
        · rfl
      rw [he] at this
      exact this

theorem step_refines {α : Type} {s : Own α} {V V' : Vals α} (r : Rel s V) (c : Cmd α)
    (h : V.step c = some V') : ∃ s', s.step c = .ok s' ∧ Rel s' V' := by
  cases c with
  | adopt x data =>
    simp only [Vals.step] at h
    cases hx : V x with
    | some v => rw [hx] at h; simp at h
    | none =>
      rw [hx] at h
      cases h
      refine ⟨_, by simp only [Own.step, r.dead hx, Own.alloc]; rfl, ?_⟩
      simpa using r.put_fresh x false true (data.map some) (fun _ => rfl)
  | borrow x data =>
    simp only [Vals.step] at h
    cases hx : V x with
    | some v => rw [hx] at h; simp at h
    | none =>
      rw [hx] at h
      cases h
      refine ⟨_, by simp only [Own.step, r.dead hx, Own.alloc]; rfl, ?_⟩
      simpa using r.put_fresh x true false (data.map some) (fun e => by cases e)
  | empty x =>
    simp only [Vals.step] at h
    cases hx : V x with
    | some v => rw [hx] at h; simp at h
    | none =>
      rw [hx] at h
      cases h
      refine ⟨_, by simp only [Own.step, r.dead hx]; rfl, ?_⟩
      exact r.replace s.heap x _ [] ⟨rfl, fun _ => rfl, fun p hp => by cases hp⟩
        fun _ _ _ _ _ _ => ⟨rfl, fun e => by cases e⟩
  | new x n =>
    simp only [Vals.step] at h
    cases hx : V x with
    | some v => rw [hx] at h; simp at h
    | none =>
      rw [hx] at h
      cases h
      refine ⟨_, by simp only [Own.step, r.dead hx, Own.alloc]; rfl, ?_⟩
      simpa using r.put_fresh x false true (List.replicate n none) (fun _ => rfl)
  | copyCtor x y =>
    simp only [Vals.step] at h
    cases hx : V x with
    | some v => rw [hx] at h; simp at h
    | none =>
      cases hy : V y with
      | none => rw [hx, hy] at h; simp at h
      | some v =>
        rw [hx, hy] at h
        cases h
        obtain ⟨o, ho, g⟩ := r.obj hy
        simp only [Own.step, r.dead hx, ho]
        exact (r.copyTo x y o v ho g).1
  | moveCtor x y =>
    simp only [Vals.step] at h
    cases hx : V x with
    | some v => rw [hx] at h; simp at h
    | none =>
      cases hy : V y with
      | none => rw [hx, hy] at h; simp at h
      | some v =>
        rw [hx, hy] at h
        cases h
        obtain ⟨o, ho, g⟩ := r.obj hy
        simp only [Own.step, r.dead hx, ho]
        exact ⟨_, rfl, r.moveTo x y o v ho g⟩
  | copyAssign x y =>
    simp only [Vals.step] at h
    cases hx : V x with
    | none => rw [hx] at h; simp at h
    | some u =>
      cases hy : V y with
      | none => rw [hx, hy] at h; simp at h
      | some v =>
        rw [hx, hy] at h
        cases h
        obtain ⟨o, ho, g⟩ := r.obj hy
        obtain ⟨o2, ho2, _⟩ := r.obj hx
        simp only [Own.step, ho2, ho]
        by_cases hxy : x = y
        · simp only [hxy, beq_self_eq_true, if_true]
          exact (r.copyTo y y o v ho g).2
        · simp only [hxy, if_false, show (x == y) = false by simp [hxy]]
          exact (r.copyTo x y o v ho g).1
  | moveAssign x y =>
    simp only [Vals.step] at h
    cases hx : V x with
    | none => rw [hx] at h; simp at h
    | some u =>
      cases hy : V y with
      | none => rw [hx, hy] at h; simp at h
      | some v =>
        rw [hx, hy] at h
        cases h
        obtain ⟨o, ho, g⟩ := r.obj hy
        obtain ⟨o2, ho2, _⟩ := r.obj hx
        simp only [Own.step, ho2, ho]
        exact ⟨_, rfl, r.moveTo x y o v ho g⟩
  | destroy x =>
    simp only [Vals.step] at h
    cases hx : V x with
    | none => rw [hx] at h; simp at h
    | some v =>
      rw [hx] at h
      cases h
      obtain ⟨o, ho, g⟩ := r.obj hx
      simp only [Own.step, ho]
      exact r.destroy x o v ho g
  | write x i w =>
    simp only [Vals.step] at h
    cases hx : V x with
    | none => rw [hx] at h; simp at h
    | some v =>
      rw [hx] at h
      cases h
      obtain ⟨o, ho, g⟩ := r.obj hx
      simp only [Own.step, ho]
      exact r.write x i w o v ho g hx

theorem run_refines {α : Type} (cs : List (Cmd α)) {s : Own α} {V V' : Vals α} (r : Rel s V)
    (h : V.run cs = some V') : ∃ s', s.run cs = .ok s' ∧ Rel s' V' := by
  induction cs generalizing s V with
  | nil => cases h; exact ⟨s, rfl, r⟩
  | cons c cs ih =>
    simp only [Vals.run] at h
    cases hc : V.step c with
    | none => rw [hc] at h; simp at h
    | some V1 =>
      rw [hc] at h
      obtain ⟨s1, h1, r1⟩ := step_refines r c hc
      obtain ⟨s2, h2, r2⟩ := ih r1 h
      exact ⟨s2, by simp [Own.run, h1, h2], r2⟩

theorem Rel.init {α : Type} : Rel (Own.init : Own α) (fun _ => none) :=
  ⟨fun _ => trivial, fun _ _ _ _ _ h => by cases h⟩

/-- C58: every program that uses arrays in their lifetimes runs without undefined behaviour (no
block is freed twice, no freed or foreign block is freed, no freed memory is read or written),
and afterwards every array in its lifetime reports the size and the elements that it has if
arrays are values: a copy has the elements of the original, changing one array changes no
other, a moved from array is empty and the target has its elements. -/
theorem c58_arrays_are_values {α : Type} (cs : List (Cmd α)) (V : Vals α)
    (h : Vals.run (fun _ => none) cs = some V) :
    ∃ s, Own.init.run cs = .ok s ∧ ∀ x,
      (V x = none → s.objs x = none) ∧
      (∀ v, V x = some v → ∃ o, s.objs x = some o ∧ o.size = v.length ∧
        s.load o.ptr o.size = .ok v) := by
  obtain ⟨s, h1, r⟩ := run_refines cs Rel.init h
  refine ⟨s, h1, fun x => ⟨r.dead, fun v hv => ?_⟩⟩
  obtain ⟨o, ho, g⟩ := r.obj hv
  exact ⟨o, ho, g.1, load_good g s.objs⟩

/-! ## Memory is given back -/

/-- The command is not an assignment to an existing array. -/
def Cmd.noAssign {α : Type} : Cmd α → Prop
  | .copyAssign _ _ | .moveAssign _ _ => False
  | _ => True

/-- Every live block from `malloc` belongs to an owning array. -/
def NoLeak {α : Type} (s : Own α) : Prop :=
  ∀ p b, s.heap[p]? = some b → b.live = true → b.foreign = false →
    ∃ x o, s.objs x = some o ∧ o.ptr = some p ∧ o.own = true

theorem append_one {α : Type} {l : List α} {a b : α} {p : Nat} (h : (l ++ [a])[p]? = some b) :
    l[p]? = some b ∨ (p = l.length ∧ a = b) := by
  rcases Nat.lt_trichotomy p l.length with hp | hp | hp
  · rw [List.getElem?_append_left hp] at h; exact .inl h
  · subst hp; simp at h; exact .inr ⟨rfl, h⟩
  · rw [List.getElem?_eq_none (by simp; omega)] at h; cases h

theorem noLeak_fresh {α : Type} {s : Own α} (n : NoLeak s) (x : Nat) (hx : s.objs x = none)
    (f own : Bool) (v : List (Option α)) (k : Nat) (hfo : f = false → own = true) :
    NoLeak ((Own.mk (s.heap ++ [⟨true, f, v⟩]) s.objs).put x
      (some ⟨some s.heap.length, k, own⟩)) := by
  intro p b hb hl hf
  rcases append_one hb with h | ⟨rfl, rfl⟩
  · obtain ⟨y, o, h1, h2⟩ := n p b h hl hf
    have : y ≠ x := fun e => by rw [e, hx] at h1; cases h1
    exact ⟨y, o, by simp [Own.put, this, h1], h2⟩
  · exact ⟨x, _, by simp [Own.put]; rfl, rfl, hfo hf⟩

theorem noLeak_step {α : Type} {s s' : Own α} (n : NoLeak s)
    (c : Cmd α) (hc : c.noAssign) (h : s.step c = .ok s') : NoLeak s' := by
  cases c with
  | adopt x data =>
    simp only [Own.step, Own.alloc] at h
    split at h
    · next hx => cases h; exact noLeak_fresh n x hx false true _ _ (fun _ => rfl)
    · cases h
  | borrow x data =>
    simp only [Own.step, Own.alloc] at h
    split at h
    · next hx => cases h; exact noLeak_fresh n x hx true false _ _ (fun e => by cases e)
    · cases h
  | empty x =>
    simp only [Own.step] at h
    split at h
    · next hx =>
      cases h
      intro p b hb hl hf
      obtain ⟨y, o, h1, h2⟩ := n p b hb hl hf
      have : y ≠ x := fun e => by rw [e, hx] at h1; cases h1
      exact ⟨y, o, by simp [Own.put, this, h1], h2⟩
    · cases h
  | new x k =>
    simp only [Own.step, Own.alloc] at h
    split at h
    · next hx => cases h; exact noLeak_fresh n x hx false true _ _ (fun _ => rfl)
    · cases h
  | copyCtor x y =>
    simp only [Own.step] at h
    split at h
    · next o hx ho =>
      simp only [Own.copyTo, Own.alloc] at h
      split at h
      · next cells hl =>
        cases h
        have := noLeak_fresh n x hx false true cells o.size (fun _ => rfl)
        simpa using this
      · cases h
    · cases h
  | moveCtor x y =>
    simp only [Own.step] at h
    split at h
    · next o hx ho =>
      cases h
      intro p b hb hl hf
      obtain ⟨z, o', h1, h2⟩ := n p b hb hl hf
      have hzx : z ≠ x := fun e => by rw [e, hx] at h1; cases h1
      have hyx : x ≠ y := fun e => by rw [← e, hx] at ho; cases ho
      by_cases hzy : z = y
      · rw [hzy, ho] at h1
        cases h1
        exact ⟨x, o, by simp [Own.moveTo, Own.put, hyx], h2⟩
      · exact ⟨z, o', by simp [Own.moveTo, Own.put, hzx, hzy, h1], h2⟩
    · cases h
  | copyAssign x y => exact hc.elim
  | moveAssign x y => exact hc.elim
  | destroy x =>
    simp only [Own.step] at h
    split at h
    · next o ho =>
      unfold Own.destroy at h
      split at h
      · next p hown hp =>
        unfold Own.free at h
        split at h
        · next cells hc =>
          cases h
          intro q b hb hl hf
          simp only [Own.put, List.getElem?_set] at hb
          by_cases hpq : p = q
          · subst hpq
            rw [if_pos rfl] at hb
            split at hb
            · cases hb; cases hl
            · cases hb
          · rw [if_neg hpq] at hb
            obtain ⟨z, o', h1, h2⟩ := n q b hb hl hf
            have hzx : z ≠ x := fun e => by
              rw [e, ho] at h1
              cases h1
              rw [hp] at h2
              exact hpq (Option.some.inj h2.1)
            exact ⟨z, o', by simp [Own.put, hzx, h1], h2⟩
        · cases h
      · next hno =>
        cases h
        intro q b hb hl hf
        obtain ⟨z, o', h1, h2⟩ := n q b hb hl hf
        have hzx : z ≠ x := fun e => by
          rw [e, ho] at h1
          cases h1
          exact hno q h2.2 h2.1
        exact ⟨z, o', by simp [Own.put, hzx, h1], h2⟩
    · cases h
  | write x i v =>
    simp only [Own.step] at h
    split at h
    · next o ho =>
      unfold Own.write at h
      split at h
      · cases h; exact n
      · split at h
        · cases h
        · next p hp =>
          split at h
          · next f cells hcell =>
            split at h
            · cases h
              intro q b hb hl hf
              simp only [List.getElem?_set] at hb
              by_cases hpq : p = q
              · subst hpq
                rw [if_pos rfl] at hb
                split at hb
                · cases hb; exact n p _ hcell rfl hf
                · cases hb
              · rw [if_neg hpq] at hb
                exact n q b hb hl hf
            · cases h
          · cases h
    · cases h

theorem noLeak_run {α : Type} (cs : List (Cmd α)) {s s' : Own α} {V V' : Vals α} (r : Rel s V)
    (n : NoLeak s) (hc : ∀ c ∈ cs, c.noAssign) (hV : V.run cs = some V')
    (h : s.run cs = .ok s') : NoLeak s' := by
  induction cs generalizing s V with
  | nil => cases h; exact n
  | cons c cs ih =>
    simp only [Vals.run] at hV
    cases hcs : V.step c with
    | none => rw [hcs] at hV; simp at hV
    | some V1 =>
      rw [hcs] at hV
      obtain ⟨s1, h1, r1⟩ := step_refines r c hcs
      simp only [Own.run, h1, Res.bind_ok] at h
      exact ih r1 (noLeak_step n c (hc c (by simp)) h1)
        (fun c' h' => hc c' (List.mem_cons_of_mem _ h')) hV h

/-- C58: when all arrays of a program are destroyed, all memory that they owned has been freed,
if the program only constructs arrays (also by copy and move) and never assigns to an existing
one. (Missing: assignments, which lose the memory of the target, see `c58_assign_leaks`.) -/
theorem c58_no_leak_partial {α : Type} (cs : List (Cmd α)) (V : Vals α)
    (h : Vals.run (fun _ => none) cs = some V) (hc : ∀ c ∈ cs, c.noAssign)
    (hend : ∀ x, V x = none) :
    ∃ s, Own.init.run cs = .ok s ∧
      ∀ (p : Nat) (b : Block α), s.heap[p]? = some b → b.foreign = false → b.live = false := by
  obtain ⟨s, h1, r⟩ := run_refines cs Rel.init h
  have n := noLeak_run cs Rel.init (fun p b hb => by simp [Own.init] at hb) hc h h1
  refine ⟨s, h1, fun p b hb hf => ?_⟩
  cases hl : b.live with
  | false => rfl
  | true =>
    obtain ⟨x, o, ho, _⟩ := n p b hb hl hf
    rw [r.dead (hend x)] at ho
    cases ho

/-- The block is live and no array refers to it. -/
def Lost {α : Type} (s : Own α) (p : Nat) : Prop :=
  (∃ f cells, s.heap[p]? = some ⟨true, f, cells⟩) ∧ ∀ x o, s.objs x = some o → o.ptr ≠ some p

theorem Lost.lt {α : Type} {s : Own α} {p : Nat} (l : Lost s p) : p < s.heap.length := by
  obtain ⟨⟨f, cells, h⟩, _⟩ := l
  exact (List.getElem?_eq_some_iff.1 h).1

theorem Lost.fresh {α : Type} {s : Own α} {p : Nat} (l : Lost s p) (b : Block α) (x k : Nat)
    (own : Bool) :
    Lost ((Own.mk (s.heap ++ [b]) s.objs).put x (some ⟨some s.heap.length, k, own⟩)) p := by
  have hlt := l.lt
  obtain ⟨⟨f, cells, h⟩, hn⟩ := l
  refine ⟨⟨f, cells, by simp only [Own.put]; rw [List.getElem?_append_left hlt]; exact h⟩,
    fun y o ho => ?_⟩
  simp only [Own.put] at ho
  split at ho
  · cases ho
    intro e
    have := Option.some.inj e
    omega
  · exact hn y o ho

theorem Lost.copyTo {α : Type} {s s' : Own α} {p : Nat} (l : Lost s p) (x : Nat) (o : Obj)
    (b : Bool) (h : s.copyTo x o b = .ok s') : Lost s' p := by
  simp only [Own.copyTo, Own.alloc] at h
  split at h
  · next cells _ =>
    cases h
    simpa using l.fresh ⟨true, false, cells⟩ x o.size true
  · cases h

theorem Lost.moveTo {α : Type} {s : Own α} {p : Nat} (l : Lost s p) (x y : Nat) (o : Obj)
    (ho : s.objs y = some o) : Lost (s.moveTo x y o) p := by
  refine ⟨l.1, fun z w hw => ?_⟩
  simp only [Own.moveTo, Own.put] at hw
  split at hw
  · cases hw; simp
  · split at hw
    · cases hw; exact l.2 y _ ho
    · exact l.2 z w hw

theorem Lost.step {α : Type} {s s' : Own α} {p : Nat} (l : Lost s p) (c : Cmd α)
    (h : s.step c = .ok s') : Lost s' p := by
  cases c with
  | adopt x data | borrow x data | new x k =>
    simp only [Own.step, Own.alloc] at h
    split at h
    · cases h; exact l.fresh _ _ _ _
    · cases h
  | empty x =>
    simp only [Own.step] at h
    split at h
    · cases h
      refine ⟨l.1, fun y o ho => ?_⟩
      simp only [Own.put] at ho
      split at ho
      · cases ho; simp
      · exact l.2 y o ho
    · cases h
  | copyCtor x y =>
    simp only [Own.step] at h
    split at h
    · exact l.copyTo _ _ _ h
    · cases h
  | copyAssign x y =>
    simp only [Own.step] at h
    split at h
    · exact l.copyTo _ _ _ h
    · cases h
  | moveCtor x y =>
    simp only [Own.step] at h
    split at h
    · next o _ ho => cases h; exact l.moveTo _ _ _ ho
    · cases h
  | moveAssign x y =>
    simp only [Own.step] at h
    split at h
    · next o _ ho => cases h; exact l.moveTo _ _ _ ho
    · cases h
  | destroy x =>
    simp only [Own.step] at h
    split at h
    · next o ho =>
      have hput : ∀ hp : List (Block α), (∃ f cells, hp[p]? = some ⟨true, f, cells⟩) →
          Lost ((Own.mk hp s.objs).put x none) p := by
        intro hp hb
        refine ⟨hb, fun y o' ho' => ?_⟩
        simp only [Own.put] at ho'
        split at ho'
        · cases ho'
        · exact l.2 y o' ho'
      unfold Own.destroy at h
      split at h
      · next q hown hq =>
        unfold Own.free at h
        split at h
        · cases h
          refine hput _ ?_
          have : q ≠ p := fun e => l.2 x o ho (e ▸ hq)
          simpa [List.getElem?_set, this] using l.1
        · cases h
      · cases h
        exact hput _ l.1
    · cases h
  | write x i v =>
    simp only [Own.step] at h
    split at h
    · next o ho =>
      unfold Own.write at h
      split at h
      · cases h; exact l
      · split at h
        · cases h
        · next q hq =>
          split at h
          · split at h
            · cases h
              have : q ≠ p := fun e => l.2 x o ho (e ▸ hq)
              refine ⟨by simpa [List.getElem?_set, this] using l.1, l.2⟩
            · cases h
          · cases h
    · cases h

theorem Lost.run {α : Type} (cs : List (Cmd α)) {s s' : Own α} {p : Nat} (l : Lost s p)
    (h : s.run cs = .ok s') : Lost s' p := by
  induction cs generalizing s with
  | nil => cases h; exact l
  | cons c cs ih =>
    simp only [Own.run] at h
    cases hc : s.step c with
    | ok s1 => rw [hc] at h; exact ih (l.step c hc) h
    | err => rw [hc] at h; cases h
    | ub => rw [hc] at h; cases h
    | abort => rw [hc] at h; cases h

/-- The memory is given back unless an array is assigned to: after assigning (copy or move) to
an array that holds a block, that block is never freed, whatever the program does next. -/
theorem c58_assign_leaks {α : Type} (cs : List (Cmd α)) (V : Vals α)
    (h : Vals.run (fun _ => none) cs = some V) (s s1 s2 : Own α) (hs : Own.init.run cs = .ok s)
    (x y p : Nat) (o : Obj) (ho : s.objs x = some o) (hp : o.ptr = some p)
    (c : Cmd α) (hcmd : c = .copyAssign x y ∨ c = .moveAssign x y)
    (h1 : s.step c = .ok s1) (later : List (Cmd α)) (h2 : s1.run later = .ok s2) :
    ∃ f cells, s2.heap[p]? = some ⟨true, f, cells⟩ := by
  obtain ⟨s', hs', r⟩ := run_refines cs Rel.init h
  rw [hs] at hs'
  cases hs'
  have hblock : ∃ f cells, s.heap[p]? = some ⟨true, f, cells⟩ := by
    have := r.good x
    rw [ho] at this
    cases hv : V x with
    | none => rw [hv] at this; exact this.elim
    | some v =>
      rw [hv] at this
      obtain ⟨f, hf, _⟩ := this.2.2 p hp
      exact ⟨f, v, hf⟩
  have hlt := r.lt ho hp
  have hlost : Lost s1 p := by
    rcases hcmd with rfl | rfl
    · simp only [Own.step, ho] at h1
      split at h1
      · next o' o2 e1 e2 =>
        simp only [Own.copyTo, Own.alloc] at h1
        split at h1
        · next cells _ =>
          cases h1
          obtain ⟨f, cl, hb⟩ := hblock
          refine ⟨⟨f, cl, ?_⟩, fun z w hw => ?_⟩
          · simp only [Own.put, List.set_append_right _ _ (Nat.le_refl _), Nat.sub_self,
              List.set_cons_zero]
            rw [List.getElem?_append_left hlt]
            exact hb
          · simp only [Own.put] at hw
            split at hw
            · cases hw
              intro e
              have := Option.some.inj e
              omega
            · next hz => exact fun e => hz (r.inj z x w o p hw ho e hp)
        · cases h1
      · cases h1
    · simp only [Own.step, ho] at h1
      split at h1
      · next o' o2 e1 e2 =>
        cases h1
        refine ⟨hblock, fun z w hw => ?_⟩
        simp only [Own.moveTo, Own.put] at hw
        split at hw
        · cases hw; simp
        · next hzy =>
          split at hw
          · next hzx =>
            cases hw
            exact fun e => hzy (hzx ▸ (r.inj x y o _ p ho e2 hp e))
          · next hzx => exact fun e => hzx (r.inj z x w o p hw ho e hp)
      · cases h1
  exact (hlost.run later h2).1

/-- Assigning an array to itself loses its elements: the new memory is copied onto itself, so
every element of the array is indeterminate afterwards. -/
theorem c58_self_assign {α : Type} (cs : List (Cmd α)) (V : Vals α)
    (h : Vals.run (fun _ => none) cs = some V) (x : Nat) (v : List (Option α))
    (hv : V x = some v) :
    ∃ s o, Own.init.run (cs ++ [.copyAssign x x]) = .ok s ∧ s.objs x = some o ∧
      o.size = v.length ∧ s.load o.ptr o.size = .ok (List.replicate v.length none) := by
  have hrun : Vals.run (fun _ => none) (cs ++ [.copyAssign x x]) =
      some (V.put x (some (List.replicate v.length none))) := by
    have : ∀ (cs : List (Cmd α)) (W : Vals α), Vals.run W cs = some V →
        Vals.run W (cs ++ [.copyAssign x x]) =
          some (V.put x (some (List.replicate v.length none))) := by
      intro cs
      induction cs with
      | nil => intro W hW; cases hW; simp [Vals.run, Vals.step, hv]
      | cons c cs ih =>
        intro W hW
        simp only [Vals.run, List.cons_append] at hW ⊢
        cases hc : W.step c with
        | none => rw [hc] at hW; simp at hW
        | some W1 => rw [hc] at hW; exact ih W1 hW
    exact this cs _ h
  obtain ⟨s, h1, h2⟩ := c58_arrays_are_values _ _ hrun
  obtain ⟨o, ho, hs, hl⟩ := (h2 x).2 (List.replicate v.length none) (by simp [Vals.put])
  simp only [List.length_replicate] at hs
  exact ⟨s, o, h1, ho, hs, hl⟩

-- non-vacuity of C58 (tests)
example : ∃ V, Vals.run (α := Nat) (fun _ => none)
    [.adopt 0 [1, 2], .copyCtor 1 0, .write 1 0 9, .moveCtor 2 0, .write 2 5 3, .destroy 0,
     .copyCtor 3 2] = some V ∧
    V 1 = some [some 9, some 2] ∧ V 2 = some [some 1, some 2] ∧ V 0 = none ∧
    V 3 = some [some 1, some 2] := ⟨_, rfl, rfl, rfl, rfl, rfl⟩

example : ∃ V, Vals.run (α := Nat) (fun _ => none)
    [.adopt 0 [1, 2], .borrow 1 [3], .moveCtor 2 0, .destroy 0, .destroy 1, .destroy 2] = some V ∧
    (∀ x, V x = none) ∧ ∀ c ∈ ([.adopt 0 [1, 2], .borrow 1 [3], .moveCtor 2 0, .destroy 0,
      .destroy 1, .destroy 2] : List (Cmd Nat)), c.noAssign := by
  refine ⟨_, rfl, fun x => ?_, ?_⟩
  · simp only [Vals.put]
    repeat' split
    all_goals rfl
  · intro c hc
    simp only [List.mem_cons, List.not_mem_nil, or_false] at hc
    rcases hc with rfl | rfl | rfl | rfl | rfl | rfl <;> trivial

example : ∃ s s1 o, Own.init.run ([.adopt 0 [1, 2], .empty 1] : List (Cmd Nat)) = .ok s ∧
    s.objs 0 = some o ∧ o.ptr = some 0 ∧ s.step (.copyAssign 0 1) = .ok s1 ∧
    ∃ s2, s1.run [.destroy 0, .destroy 1] = .ok s2 ∧ (s2.heap.map (·.live)) = [true, false] :=
  ⟨_, _, _, rfl, rfl, rfl, rfl, _, rfl, rfl⟩

end Dyna.Cpp
