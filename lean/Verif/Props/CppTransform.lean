import Verif.CppTransform
/-!
# C77: `IncludeTransform` and `DefineTransformation` objects as values
-/

namespace Dyna.TransformObj

open Dyna

/-! ## Specification 1: values -/

/-- Specification: what an object is for its user, numbers and texts. -/
structure Value where
  num : List Int
  text : Nat → Option Text

/-- Specification: a card sets a text or appends an option. -/
def extend (f : Field) (old : Option Text) (t : Text) : Option Text := if f.array then some (old.getD [] ++ t) else some t

/-- Specification: programs on values. A copy is equal to the original, a moved object is empty. -/
def Value.step (c : Class) (v : Nat → Option Value) : Cmd → Res ((Nat → Option Value) × List Seen)
  | .make x num vals => match v x with
    | some _ => .err
    | none => .ok (put v x (some ⟨num, vals⟩), [])
  | .copyCtor x y => match v x, v y with
    | none, some a => .ok (put v x (some a), [])
    | _, _ => .err
  | .moveCtor x y => match v x, v y with
    | none, some a => .ok (put (put v x (some a)) y (some ⟨a.num.map fun _ => 0, fun _ => none⟩), [])
    | _, _ => .err
  | .copyAssign x y => match v x, v y with
    | some _, some a => .ok (put v x (some a), [])
    | _, _ => .err
  | .moveAssign x y => match v x, v y with
    | some _, some a => .ok (put (put v x (some a)) y (some ⟨a.num.map fun _ => 0, fun _ => none⟩), [])
    | _, _ => .err
  | .destroy x => match v x with
    | some _ => .ok (put v x none, [])
    | none => .err
  | .parse x k t => match v x with
    | some a => if k < c.fields then .ok (put v x (some ⟨a.num, put a.text k (extend (c.field k) (a.text k) t)⟩), []) else .err
    | none => .err
  | .parseNum x num => match v x with
    | some a => .ok (put v x (some ⟨num, a.text⟩), [])
    | none => .err
  | .look x k => match v x with
    | some a => if k < c.fields then .ok (v, [.text (a.text k)]) else .err
    | none => .err
  | .lookNum x => match v x with
    | some a => .ok (v, [.numbers a.num])
    | none => .err

/-- Specification: a whole program on values. -/
def Value.run (c : Class) : List Cmd → (Nat → Option Value) → Res ((Nat → Option Value) × List Seen)
  | [], v => .ok (v, [])
  | i :: is, v => do
    let (v, out) ← Value.step c v i
    let (v, out') ← Value.run c is v
    .ok (v, out ++ out')

/-- Auxiliary of the specification: what a program sees. -/
def seen {α β : Type} : Res (α × β) → Res β
  | .ok (_, o) => .ok o
  | .err => .err
  | .ub => .ub
  | .abort => .abort

/-! ## Specification 2: values with garbage, exact for every program -/

/-- Specification: what a member holds, without pointers. -/
inductive Part where
  | null
  | junk
  | val (t : Text)

/-- Specification: an object without pointers. -/
structure Parts where
  num : List Int
  part : Nat → Part

/-- Specification: a text that may be missing. -/
def Part.ofOption : Option Text → Part
  | none => .null
  | some t => .val t

/-- Specification: what copying a member does. -/
def copyPart (f : Field) (self : Bool) (src base : Part) : Res Part :=
  match src with
  | .null => if f.always then .ub else .ok base
  | .junk => .ub
  | .val t => if self && f.array then .ub else .ok (.val t)

/-- Specification: what copying the first `n` members does. -/
def copyParts (c : Class) (self : Bool) (src dst : Nat → Part) : Nat → Res (Nat → Part)
  | 0 => .ok (if c.shallow then src else dst)
  | n + 1 => do
    let f ← copyParts c self src dst n
    let p ← copyPart (c.field n) self (src n) (if c.shallow then src n else dst n)
    .ok (put f n p)

/-- Specification: garbage is never freed. -/
def freeable (c : Class) (part : Nat → Part) : Nat → Res Unit
  | 0 => .ok ()
  | n + 1 => do
    freeable c part n
    if (c.field n).freed then
      match part n with
      | .junk => .ub
      | _ => .ok ()
    else .ok ()

/-- Specification: a card sets a text or appends an option. -/
def parsePart (f : Field) (old : Part) (t : Text) : Res Part :=
  if f.array then
    match old with
    | .null => .ok (.val t)
    | .junk => .ub
    | .val u => .ok (.val (u ++ t))
  else .ok (.val t)

/-- Specification: programs without pointers and memory. -/
def Parts.step (c : Class) (S : Nat → Option Parts) : Cmd → Res ((Nat → Option Parts) × List Seen)
  | .make x num vals => match S x with
    | some _ => .err
    | none => .ok (put S x (some ⟨num, fun k => .ofOption (vals k)⟩), [])
  | .copyCtor x y => match S x, S y with
    | none, some a => do
      let f ← copyParts c false a.part (fun _ => .junk) c.fields
      .ok (put S x (some ⟨a.num, f⟩), [])
    | _, _ => .err
  | .moveCtor x y => match S x, S y with
    | none, some a => .ok (put (put S x (some a)) y (some ⟨a.num.map fun _ => 0, fun _ => .null⟩), [])
    | _, _ => .err
  | .copyAssign x y => match S x, S y with
    | some a', some a => do
      let f ← copyParts c (x == y) a.part a'.part c.fields
      .ok (put S x (some ⟨a.num, f⟩), [])
    | _, _ => .err
  | .moveAssign x y => match S x, S y with
    | some _, some a => .ok (put (put S x (some a)) y (some ⟨a.num.map fun _ => 0, fun _ => .null⟩), [])
    | _, _ => .err
  | .destroy x => match S x with
    | some a => do
      freeable c a.part c.fields
      .ok (put S x none, [])
    | none => .err
  | .parse x k t => match S x with
    | some a => if k < c.fields then do
        let p ← parsePart (c.field k) (a.part k) t
        .ok (put S x (some ⟨a.num, put a.part k p⟩), [])
      else .err
    | none => .err
  | .parseNum x num => match S x with
    | some a => .ok (put S x (some ⟨num, a.part⟩), [])
    | none => .err
  | .look x k => match S x with
    | some a => if k < c.fields then
        match a.part k with
        | .null => .ok (S, [.text none])
        | .junk => .ub
        | .val t => .ok (S, [.text (some t)])
      else .err
    | none => .err
  | .lookNum x => match S x with
    | some a => .ok (S, [.numbers a.num])
    | none => .err

/-- Specification: a whole program without memory. -/
def Parts.run (c : Class) : List Cmd → (Nat → Option Parts) → Res ((Nat → Option Parts) × List Seen)
  | [], S => .ok (S, [])
  | i :: is, S => do
    let (S, out) ← Parts.step c S i
    let (S, out') ← Parts.run c is S
    .ok (S, out ++ out')

/-! ## The relation between memory and values -/

theorem put_same {α : Type} (f : Nat → α) (x : Nat) (v : α) : put f x v x = v := by simp [put]

theorem put_other {α : Type} (f : Nat → α) {x y : Nat} (v : α) (h : y ≠ x) : put f x v y = f y := by simp [put, h]

theorem put_put {α : Type} (f : Nat → α) (x : Nat) (v w : α) : put (put f x v) x w = put f x w := by
  funext y; unfold put; split <;> rfl

theorem put_comm {α : Type} (f : Nat → α) {x y : Nat} (v w : α) (h : x ≠ y) : put (put f x v) y w = put (put f y w) x v := by
  funext z
  unfold put
  by_cases h1 : z = x
  · subst h1; simp [h]
  · simp [h1]

/-- Auxiliary of the proofs: a pointer holds a value. -/
def PtrOk (h : Heap) : Ptr → Part → Prop
  | .null, .null => True
  | .junk, .junk => True
  | .at p, .val t => h[p]? = some ⟨true, t⟩
  | _, _ => False

/-- Auxiliary of the proofs: an object holds its values. -/
structure ObjOk (n : Nat) (h : Heap) (o : Obj) (a : Parts) : Prop where
  num : o.num = a.num
  ptr : ∀ k < n, PtrOk h (o.ptr k) (a.part k)

/-- Auxiliary of the proofs: both missing or both related. -/
def OptRel {α β : Type} (R : α → β → Prop) : Option α → Option β → Prop
  | none, none => True
  | some a, some b => R a b
  | _, _ => False

/-- Auxiliary of the proofs: memory and values belong together, every pointer has its own block. -/
structure Rel (n : Nat) (s : State) (S : Nat → Option Parts) : Prop where
  obj : ∀ x, OptRel (ObjOk n s.heap) (s.obj x) (S x)
  uniq : ∀ x y o o' k k' p, s.obj x = some o → s.obj y = some o' → k < n → k' < n → o.ptr k = .at p → o'.ptr k' = .at p →
    x = y ∧ k = k'

theorem Rel.init (n : Nat) : Rel n State.init (fun _ => none) := ⟨fun _ => trivial, fun _ _ _ _ _ _ _ h => (nomatch h)⟩

theorem OptRel.of_none {α β : Type} {R : α → β → Prop} {b : Option β} (h : OptRel R none b) : b = none := by
  cases b with
  | none => rfl
  | some _ => exact h.elim

theorem OptRel.of_some {α β : Type} {R : α → β → Prop} {a : α} {b : Option β} (h : OptRel R (some a) b) : ∃ b', b = some b' ∧ R a b' := by
  cases b with
  | none => exact h.elim
  | some b' => exact ⟨b', rfl, h⟩

theorem PtrOk.live {h : Heap} {p : Nat} {q : Part} (ok : PtrOk h (.at p) q) : ∃ t, q = .val t ∧ h[p]? = some ⟨true, t⟩ := by
  cases q with
  | null => exact ok.elim
  | junk => exact ok.elim
  | val t => exact ⟨t, rfl, ok⟩

theorem PtrOk.imp {h h' : Heap} {p : Ptr} {q : Part} (ok : PtrOk h p q) (e : ∀ i, p = .at i → h'[i]? = h[i]?) : PtrOk h' p q := by
  cases p with
  | null => cases q <;> exact ok
  | junk => cases q <;> exact ok
  | «at» i =>
    obtain ⟨t, rfl, ht⟩ := ok.live
    show h'[i]? = _
    rw [e i rfl, ht]

variable {n : Nat} {s : State} {S : Nat → Option Parts}

theorem Rel.of_some (r : Rel n s S) {x : Nat} {o : Obj} (h : s.obj x = some o) : ∃ a, S x = some a ∧ ObjOk n s.heap o a := by
  have := r.obj x
  rw [h] at this
  exact this.of_some

theorem Rel.of_none (r : Rel n s S) {x : Nat} (h : s.obj x = none) : S x = none := by
  have := r.obj x
  rw [h] at this
  exact this.of_none

theorem Rel.lt (r : Rel n s S) {x : Nat} {o : Obj} (h : s.obj x = some o) {k p : Nat} (hk : k < n) (hp : o.ptr k = .at p) :
    p < s.heap.length := by
  obtain ⟨a, _, ok⟩ := r.of_some h
  have := ok.ptr k hk
  rw [hp] at this
  obtain ⟨t, _, ht⟩ := this.live
  exact (List.getElem?_eq_some_iff.mp ht).1

/-- Replace one object and the memory behind it. -/
theorem Rel.replace (r : Rel n s S) {x : Nat} {h' : Heap} {o : Option Obj} {a : Option Parts}
    (keep : ∀ y o' k p, y ≠ x → s.obj y = some o' → k < n → o'.ptr k = .at p → h'[p]? = s.heap[p]?)
    (ok : OptRel (ObjOk n h') o a)
    (inner : ∀ o', o = some o' → ∀ k k' p, k < n → k' < n → o'.ptr k = .at p → o'.ptr k' = .at p → k = k')
    (outer : ∀ o', o = some o' → ∀ y o'' k k' p, y ≠ x → s.obj y = some o'' → k < n → k' < n → o'.ptr k = .at p → o''.ptr k' ≠ .at p) :
    Rel n ⟨h', put s.obj x o⟩ (put S x a) := by
  constructor
  · intro y
    by_cases hy : y = x
    · subst hy
      show OptRel (ObjOk n h') (put s.obj y o y) (put S y a y)
      rw [put_same, put_same]
      exact ok
    · show OptRel (ObjOk n h') (put s.obj x o y) (put S x a y)
      rw [put_other _ _ hy, put_other _ _ hy]
      have h1 := r.obj y
      cases ho : s.obj y with
      | none =>
        rw [ho] at h1
        rw [h1.of_none]
        trivial
      | some o' =>
        rw [ho] at h1
        obtain ⟨a', ha, oa⟩ := h1.of_some
        rw [ha]
        exact ⟨oa.num, fun k hk => (oa.ptr k hk).imp fun i hi => keep y o' k i hy ho hk hi⟩
  · intro y z o1 o2 k k' p h1 h2 hk hk' hp hp'
    change put s.obj x o y = some o1 at h1
    change put s.obj x o z = some o2 at h2
    by_cases hy : y = x
    · subst hy
      rw [put_same] at h1
      by_cases hz : z = y
      · subst hz
        rw [put_same] at h2
        have e : o1 = o2 := Option.some.inj (h1.symm.trans h2)
        subst e
        exact ⟨rfl, inner _ h1 k k' p hk hk' hp hp'⟩
      · rw [put_other _ _ hz] at h2
        exact absurd hp' (outer o1 h1 z o2 k k' p hz h2 hk hk' hp)
    · rw [put_other _ _ hy] at h1
      by_cases hz : z = x
      · subst hz
        rw [put_same] at h2
        exact absurd hp (outer o2 h2 y o1 k' k p hy h1 hk' hk hp')
      · rw [put_other _ _ hz] at h2
        exact r.uniq y z o1 o2 k k' p h1 h2 hk hk' hp hp'

/-! ## The loops over the members -/

theorem alloc_get (h : Heap) (t : Text) : (alloc h t).1[(alloc h t).2]? = some ⟨true, t⟩ := by simp [alloc]

theorem alloc_old (h : Heap) (t : Text) {p : Nat} (hp : p < h.length) : (alloc h t).1[p]? = h[p]? := by
  simp [alloc, List.getElem?_append_left hp]

/-- Auxiliary of the proofs: what a constructor or an assignment makes of memory: new blocks only, every new pointer is new or `old`. -/
structure Fresh (m : Nat) (h h' : Heap) (f old : Nat → Ptr) : Prop where
  len : h.length ≤ h'.length
  same : ∀ p, p < h.length → h'[p]? = h[p]?
  range : ∀ k < m, ∀ p, f k = .at p → p < h'.length
  ptr : ∀ k < m, ∀ p, f k = .at p → h.length ≤ p ∨ old k = .at p
  inner : ∀ k < m, ∀ k' < m, ∀ p, h.length ≤ p → f k = .at p → f k' = .at p → k = k'

theorem Fresh.snoc {m : Nat} {h h' : Heap} {f old : Nat → Ptr} (F : Fresh m h h' f old) (t : Text) :
    Fresh (m + 1) h (alloc h' t).1 (put f m (.at (alloc h' t).2)) old := by
  have hl : (alloc h' t).1.length = h'.length + 1 := by simp [alloc]
  have hlen := F.len
  have hq : (alloc h' t).2 = h'.length := rfl
  constructor
  · omega
  · intro p hp
    rw [alloc_old _ _ (by omega), F.same p hp]
  · intro k hk p hp
    by_cases hkm : k = m
    · subst hkm
      rw [put_same] at hp
      cases hp
      omega
    · rw [put_other _ _ hkm] at hp
      have := F.range k (by omega) p hp
      omega
  · intro k hk p hp
    by_cases hkm : k = m
    · subst hkm
      rw [put_same] at hp
      cases hp
      left
      omega
    · rw [put_other _ _ hkm] at hp
      exact F.ptr k (by omega) p hp
  · intro k hk k' hk' p hge hp hp'
    by_cases hkm : k = m
    · by_cases hkm' : k' = m
      · omega
      · subst hkm
        rw [put_same] at hp
        cases hp
        rw [put_other _ _ hkm'] at hp'
        have := F.range k' (by omega) _ hp'
        omega
    · rw [put_other _ _ hkm] at hp
      by_cases hkm' : k' = m
      · subst hkm'
        rw [put_same] at hp'
        cases hp'
        have := F.range k (by omega) _ hp
        omega
      · rw [put_other _ _ hkm'] at hp'
        exact F.inner k (by omega) k' (by omega) p hge hp hp'

theorem Fresh.keep {m : Nat} {h h' : Heap} {f old : Nat → Ptr} (F : Fresh m h h' f old) {q : Ptr}
    (hq : ∀ p, q = .at p → p < h.length ∧ old m = .at p) : Fresh (m + 1) h h' (put f m q) old := by
  have hlen := F.len
  constructor
  · exact F.len
  · exact F.same
  · intro k hk p hp
    by_cases hkm : k = m
    · subst hkm
      rw [put_same] at hp
      have := (hq p hp).1
      omega
    · rw [put_other _ _ hkm] at hp
      exact F.range k (by omega) p hp
  · intro k hk p hp
    by_cases hkm : k = m
    · subst hkm
      rw [put_same] at hp
      exact .inr (hq p hp).2
    · rw [put_other _ _ hkm] at hp
      exact F.ptr k (by omega) p hp
  · intro k hk k' hk' p hge hp hp'
    by_cases hkm : k = m
    · by_cases hkm' : k' = m
      · omega
      · subst hkm
        rw [put_same] at hp
        have := (hq p hp).1
        omega
    · rw [put_other _ _ hkm] at hp
      by_cases hkm' : k' = m
      · subst hkm'
        rw [put_same] at hp'
        have := (hq p hp').1
        omega
      · rw [put_other _ _ hkm'] at hp'
        exact F.inner k (by omega) k' (by omega) p hge hp hp'

theorem Fresh.ok_old {m : Nat} {h h' : Heap} {f old : Nat → Ptr} (F : Fresh m h h' f old) {q : Ptr} {a : Part} (ok : PtrOk h q a) :
    PtrOk h' q a := by
  refine ok.imp fun i hi => ?_
  subst hi
  obtain ⟨t, _, ht⟩ := ok.live
  exact F.same i (List.getElem?_eq_some_iff.mp ht).1

theorem makeFields_fresh (vals : Nat → Option Text) (m : Nat) (h : Heap) :
    Fresh m h (makeFields vals m h).1 (makeFields vals m h).2 (fun _ => .null) ∧
      ∀ k < m, PtrOk (makeFields vals m h).1 ((makeFields vals m h).2 k) (.ofOption (vals k)) := by
  induction m with
  | zero =>
    refine ⟨⟨Nat.le_refl _, fun _ _ => rfl, fun k hk => (by omega), fun k hk => (by omega), fun k hk => (by omega)⟩, fun k hk => (by omega)⟩
  | succ m ih =>
    obtain ⟨F, ok⟩ := ih
    cases hv : vals m with
    | none =>
      have e : makeFields vals (m + 1) h = ((makeFields vals m h).1, put (makeFields vals m h).2 m .null) := by
        rw [makeFields, hv]
      rw [e]
      refine ⟨F.keep fun p hp => (nomatch hp), fun k hk => ?_⟩
      by_cases hkm : k = m
      · subst hkm
        simp only [put_same, hv]
        trivial
      · simp only [put_other _ _ hkm]
        exact ok k (by omega)
    | some t =>
      have e : makeFields vals (m + 1) h = ((alloc (makeFields vals m h).1 t).1,
          put (makeFields vals m h).2 m (.at (alloc (makeFields vals m h).1 t).2)) := by
        rw [makeFields, hv]
      rw [e]
      refine ⟨F.snoc t, fun k hk => ?_⟩
      by_cases hkm : k = m
      · subst hkm
        simp only [put_same, hv]
        exact alloc_get _ t
      · simp only [put_other _ _ hkm]
        refine (ok k (by omega)).imp fun i hi => alloc_old _ _ ?_
        exact F.range k (by omega) i hi

/-- Auxiliary of the proofs: two outcomes agree. -/
def Same {α β : Type} (R : α → β → Prop) : Res α → Res β → Prop
  | .ok a, .ok b => R a b
  | .err, .err => True
  | .ub, .ub => True
  | .abort, .abort => True
  | _, _ => False

theorem Same.bind {α β γ δ : Type} {R : α → β → Prop} {R' : γ → δ → Prop} {a : Res α} {b : Res β} {f : α → Res γ} {g : β → Res δ}
    (h : Same R a b) (hf : ∀ x y, R x y → Same R' (f x) (g y)) : Same R' (a >>= f) (b >>= g) := by
  cases a <;> cases b <;> first
    | exact h.elim
    | exact hf _ _ h
    | trivial

theorem load_live {h : Heap} {p : Nat} {t : Text} (hp : h[p]? = some ⟨true, t⟩) : load h p = .ok t := by simp [load, hp]

theorem copyFields_same (c : Class) (self : Bool) {h : Heap} {src dst : Nat → Ptr} {srcP dstP : Nat → Part}
    (m : Nat) (ok : ∀ k < m, PtrOk h (src k) (srcP k)) (ok' : ∀ k < m, PtrOk h (dst k) (dstP k)) :
    Same (fun (r : Heap × (Nat → Ptr)) (f : Nat → Part) => Fresh m h r.1 r.2 dst ∧ ∀ k < m, PtrOk r.1 (r.2 k) (f k))
      (copyFields c self src dst m h) (copyParts c self srcP dstP m) := by
  induction m with
  | zero =>
    show Fresh _ _ _ _ _ ∧ _
    exact ⟨⟨Nat.le_refl _, fun _ _ => rfl, fun k hk => (by omega), fun k hk => (by omega), fun k hk => (by omega)⟩, fun k hk => (by omega)⟩
  | succ m ih =>
    have ih := ih (fun k hk => ok k (by omega)) (fun k hk => ok' k (by omega))
    rw [copyFields, copyParts]
    refine ih.bind fun r f hr => ?_
    obtain ⟨h1, g⟩ := r
    obtain ⟨F, okr⟩ := hr
    have okm := ok m (by omega)
    have okm' := ok' m (by omega)
    dsimp only at F okr ⊢
    have old : ∀ (q : Ptr) (a : Part), (∀ p, q = .at p → p < h.length ∧ dst m = .at p) → PtrOk h1 q a →
        Fresh (m + 1) h h1 (put g m q) dst ∧ ∀ k < m + 1, PtrOk h1 (put g m q k) (put f m a k) := by
      intro q a hq ha
      refine ⟨F.keep hq, fun k hk => ?_⟩
      by_cases hkm : k = m
      · subst hkm
        simp only [put_same]
        exact ha
      · simp only [put_other _ _ hkm]
        exact okr k (by omega)
    cases hs : src m with
    | null =>
      rw [hs] at okm
      cases hp : srcP m with
      | null =>
        unfold copyField copyPart
        dsimp only
        by_cases ha : (c.field m).always
        · simp only [ha, if_true]
          trivial
        · simp only [ha]
          show Fresh _ _ _ _ _ ∧ _
          by_cases hsh : c.shallow
          · simp only [hsh, if_true]
            exact old .null .null (fun p hp => (nomatch hp)) trivial
          · simp only [hsh, Bool.false_eq_true, if_false]
            refine old (dst m) (dstP m) (fun p hp => ⟨?_, hp⟩) (F.ok_old okm')
            rw [hp] at okm'
            obtain ⟨t, _, ht⟩ := okm'.live
            exact (List.getElem?_eq_some_iff.mp ht).1
      | junk => rw [hp] at okm; exact okm.elim
      | val t => rw [hp] at okm; exact okm.elim
    | junk =>
      rw [hs] at okm
      cases hp : srcP m with
      | null => rw [hp] at okm; exact okm.elim
      | junk => trivial
      | val t => rw [hp] at okm; exact okm.elim
    | «at» p =>
      rw [hs] at okm
      obtain ⟨t, hp, ht⟩ := okm.live
      rw [hp]
      unfold copyField copyPart
      dsimp only
      by_cases hb : (self && (c.field m).array) = true
      · rw [if_pos hb, if_pos hb]
        trivial
      · rw [if_neg hb, if_neg hb]
        have ht1 : h1[p]? = some ⟨true, t⟩ := by
          rw [F.same p (List.getElem?_eq_some_iff.mp ht).1, ht]
        rw [load_live ht1]
        show Fresh _ _ _ _ _ ∧ _
        refine ⟨F.snoc t, fun k hk => ?_⟩
        by_cases hkm : k = m
        · subst hkm
          simp only [put_same]
          exact alloc_get _ t
        · simp only [put_other _ _ hkm]
          refine (okr k (by omega)).imp fun i hi => alloc_old _ _ ?_
          exact F.range k (by omega) i hi

theorem freeFields_same (c : Class) {h : Heap} {ptr : Nat → Ptr} {part : Nat → Part} (m : Nat) (ok : ∀ k < m, PtrOk h (ptr k) (part k))
    (uniq : ∀ k k' p, k < m → k' < m → ptr k = .at p → ptr k' = .at p → k = k') :
    Same (fun (h' : Heap) (_ : Unit) => h'.length = h.length ∧
        ∀ p, (∀ k < m, (c.field k).freed = true → ptr k ≠ .at p) → h'[p]? = h[p]?)
      (freeFields c ptr m h) (freeable c part m) := by
  induction m with
  | zero => exact ⟨rfl, fun _ _ => rfl⟩
  | succ m ih =>
    have ih := ih (fun k hk => ok k (by omega)) (fun k k' p hk hk' => uniq k k' p (by omega) (by omega))
    rw [freeFields, freeable]
    refine ih.bind fun h1 _ hr => ?_
    obtain ⟨hl, hsame⟩ := hr
    by_cases hf : (c.field m).freed
    · rw [if_pos hf, if_pos hf]
      have okm := ok m (by omega)
      cases hs : ptr m with
      | null =>
        rw [hs] at okm
        cases hp : part m with
        | null => exact ⟨hl, fun p h => hsame p fun k hk => h k (by omega)⟩
        | junk => rw [hp] at okm; exact okm.elim
        | val t => rw [hp] at okm; exact okm.elim
      | junk =>
        rw [hs] at okm
        cases hp : part m with
        | null => rw [hp] at okm; exact okm.elim
        | junk => trivial
        | val t => rw [hp] at okm; exact okm.elim
      | «at» p =>
        rw [hs] at okm
        obtain ⟨t, hp, ht⟩ := okm.live
        rw [hp]
        have ht1 : h1[p]? = some ⟨true, t⟩ := by
          rw [hsame p fun k hk _ hkp => ?_, ht]
          have := uniq k m p (by omega) (by omega) hkp hs
          omega
        unfold free
        simp only [ht1]
        refine ⟨by simp [hl], fun q h => ?_⟩
        have hqp : p ≠ q := by
          intro hpq
          subst hpq
          exact h m (by omega) hf hs
        rw [List.getElem?_set_ne hqp]
        exact hsame q fun k hk => h k (by omega)
    · rw [if_neg hf, if_neg hf]
      exact ⟨hl, fun p h => hsame p fun k hk => h k (by omega)⟩

/-! ## Every step agrees -/

theorem Rel.fresh (r : Rel n s S) {x : Nat} {h' : Heap} {f old : Nat → Ptr} {num : List Int} {part : Nat → Part}
    (F : Fresh n s.heap h' f old)
    (hold : ∀ k < n, ∀ p, old k = .at p → ∃ o, s.obj x = some o ∧ o.ptr k = .at p)
    (ok : ∀ k < n, PtrOk h' (f k) (part k)) :
    Rel n ⟨h', put s.obj x (some ⟨num, f⟩)⟩ (put S x (some ⟨num, part⟩)) := by
  apply r.replace
  · intro y o' k p _ ho hk hp
    exact F.same p (r.lt ho hk hp)
  · exact ⟨rfl, ok⟩
  · intro o' ho' k k' p hk hk' hp hp'
    cases ho'
    rcases F.ptr k hk p hp with hge | hold1
    · exact F.inner k hk k' hk' p hge hp hp'
    · obtain ⟨o, ho, hop⟩ := hold k hk p hold1
      have hlt := r.lt ho hk hop
      rcases F.ptr k' hk' p hp' with hge | hold2
      · omega
      · obtain ⟨o2, ho2, hop2⟩ := hold k' hk' p hold2
        exact (r.uniq x x o o2 k k' p ho ho2 hk hk' hop hop2).2
  · intro o' ho' y o'' k k' p hy ho hk hk' hp hp'
    cases ho'
    have hlt := r.lt ho hk' hp'
    rcases F.ptr k hk p hp with hge | hold1
    · omega
    · obtain ⟨o, hox, hop⟩ := hold k hk p hold1
      exact hy (r.uniq x y o o'' k k' p hox ho hk hk' hop hp').1.symm

theorem Rel.empty (r : Rel n s S) (x : Nat) (num : List Int) :
    Rel n ⟨s.heap, put s.obj x (some ⟨num, fun _ => .null⟩)⟩ (put S x (some ⟨num, fun _ => .null⟩)) := by
  apply r.replace
  · intro y o' k p _ _ _ _
    rfl
  · exact ⟨rfl, fun k _ => trivial⟩
  · intro o' ho' k k' p _ _ hp
    cases ho'
    exact (nomatch hp)
  · intro o' ho' y o'' k k' p _ _ _ _ hp
    cases ho'
    exact (nomatch hp)

theorem Rel.move (r : Rel n s S) {x y : Nat} {o : Obj} {a : Parts} (hy : s.obj y = some o) (hS : S y = some a) (num : List Int) :
    Rel n ⟨s.heap, put (put s.obj x (some o)) y (some ⟨num, fun _ => .null⟩)⟩ (put (put S x (some a)) y (some ⟨num, fun _ => .null⟩)) := by
  by_cases hxy : x = y
  · subst hxy
    rw [put_put, put_put]
    exact r.empty x num
  · rw [put_comm _ _ _ hxy, put_comm _ _ _ hxy]
    have r1 := r.empty y num
    obtain ⟨a', ha', ok⟩ := r.of_some hy
    rw [hS] at ha'
    cases ha'
    refine Rel.replace (s := ⟨s.heap, _⟩) r1 (fun _ _ _ _ _ _ _ _ => rfl) ok ?_ ?_
    · intro o' ho' k k' p hk hk' hp hp'
      cases ho'
      exact (r.uniq y y o o k k' p hy hy hk hk' hp hp').2
    · intro o' ho' z o'' k k' p hz ho hk hk' hp hp'
      cases ho'
      have ho : put s.obj y _ z = some o'' := ho
      by_cases hzy : z = y
      · subst hzy
        rw [put_same] at ho
        cases ho
        exact (nomatch hp')
      · rw [put_other _ _ hzy] at ho
        exact hzy (r.uniq z y o'' o k' k p ho hy hk' hk hp' hp).1

/-- Auxiliary of the proofs: related states, the same output. -/
def After (n : Nat) (a : State × List Seen) (b : (Nat → Option Parts) × List Seen) : Prop := Rel n a.1 b.1 ∧ a.2 = b.2

theorem step_same (c : Class) {s : State} {S : Nat → Option Parts} (r : Rel c.fields s S) (i : Cmd) :
    Same (After c.fields) (s.step c i) (Parts.step c S i) := by
  cases i with
  | make x num vals =>
    unfold State.step Parts.step
    dsimp only
    cases hx : s.obj x with
    | some o =>
      obtain ⟨a, ha, _⟩ := r.of_some hx
      rw [ha]
      trivial
    | none =>
      rw [r.of_none hx]
      obtain ⟨F, ok⟩ := makeFields_fresh vals c.fields s.heap
      exact ⟨r.fresh F (fun k _ p hp => (nomatch hp)) ok, rfl⟩
  | copyCtor x y =>
    unfold State.step Parts.step
    dsimp only
    cases hx : s.obj x with
    | some o =>
      obtain ⟨a, ha, _⟩ := r.of_some hx
      rw [ha]
      trivial
    | none =>
      rw [r.of_none hx]
      cases hy : s.obj y with
      | none =>
        rw [r.of_none hy]
        trivial
      | some o =>
        obtain ⟨a, ha, ok⟩ := r.of_some hy
        rw [ha]
        refine (copyFields_same c false c.fields ok.ptr (dst := fun _ => .junk) (dstP := fun _ => .junk) fun _ _ => trivial).bind ?_
        intro q f ⟨F, okf⟩
        obtain ⟨h1, g⟩ := q
        show Rel _ _ _ ∧ _
        rw [← ok.num]
        exact ⟨r.fresh F (fun k _ p hp => (nomatch hp)) okf, rfl⟩
  | moveCtor x y =>
    unfold State.step Parts.step
    dsimp only
    cases hx : s.obj x with
    | some o =>
      obtain ⟨a, ha, _⟩ := r.of_some hx
      rw [ha]
      trivial
    | none =>
      rw [r.of_none hx]
      cases hy : s.obj y with
      | none =>
        rw [r.of_none hy]
        trivial
      | some o =>
        obtain ⟨a, ha, ok⟩ := r.of_some hy
        rw [ha]
        show Rel _ _ _ ∧ _
        dsimp only
        rw [ok.num]
        exact ⟨r.move hy ha _, rfl⟩
  | copyAssign x y =>
    unfold State.step Parts.step
    dsimp only
    cases hx : s.obj x with
    | none =>
      rw [r.of_none hx]
      trivial
    | some o' =>
      obtain ⟨a', ha', ok'⟩ := r.of_some hx
      rw [ha']
      cases hy : s.obj y with
      | none =>
        rw [r.of_none hy]
        trivial
      | some o =>
        obtain ⟨a, ha, ok⟩ := r.of_some hy
        rw [ha]
        refine (copyFields_same c (x == y) c.fields ok.ptr ok'.ptr).bind ?_
        intro q f ⟨F, okf⟩
        obtain ⟨h1, g⟩ := q
        show Rel _ _ _ ∧ _
        rw [← ok.num]
        exact ⟨r.fresh F (fun k _ p hp => ⟨o', hx, hp⟩) okf, rfl⟩
  | moveAssign x y =>
    unfold State.step Parts.step
    dsimp only
    cases hx : s.obj x with
    | none =>
      rw [r.of_none hx]
      trivial
    | some o' =>
      obtain ⟨a', ha', ok'⟩ := r.of_some hx
      rw [ha']
      cases hy : s.obj y with
      | none =>
        rw [r.of_none hy]
        trivial
      | some o =>
        obtain ⟨a, ha, ok⟩ := r.of_some hy
        rw [ha]
        show Rel _ _ _ ∧ _
        dsimp only
        rw [ok.num]
        exact ⟨r.move hy ha _, rfl⟩
  | destroy x =>
    unfold State.step Parts.step
    dsimp only
    cases hx : s.obj x with
    | none =>
      rw [r.of_none hx]
      trivial
    | some o =>
      obtain ⟨a, ha, ok⟩ := r.of_some hx
      rw [ha]
      refine (freeFields_same c c.fields ok.ptr fun k k' p hk hk' hp hp' => (r.uniq x x o o k k' p hx hx hk hk' hp hp').2).bind ?_
      intro h1 _ ⟨_, hs⟩
      refine ⟨?_, rfl⟩
      apply r.replace
      · intro y o' k p hy ho hk hp
        exact hs p fun k' hk' _ hp' => hy (r.uniq y x o' o k k' p ho hx hk hk' hp hp').1
      · trivial
      · intro o' ho'
        exact (nomatch ho')
      · intro o' ho'
        exact (nomatch ho')
  | parse x k t =>
    unfold State.step Parts.step
    dsimp only
    cases hx : s.obj x with
    | none =>
      rw [r.of_none hx]
      trivial
    | some o =>
      obtain ⟨a, ha, ok⟩ := r.of_some hx
      rw [ha]
      dsimp only
      by_cases hk : k < c.fields
      · rw [if_pos hk, if_pos hk]
        -- the new block, with the old one freed or forgotten
        have key : ∀ (h1 : Heap) (u : Text), h1.length = s.heap.length → (∀ p, o.ptr k ≠ .at p → h1[p]? = s.heap[p]?) →
            Rel c.fields ⟨(alloc h1 u).1, put s.obj x (some ⟨o.num, put o.ptr k (.at (alloc h1 u).2)⟩)⟩
              (put S x (some ⟨a.num, put a.part k (.val u)⟩)) := by
          intro h1 u hl hs
          have hold : ∀ y o' k' p, s.obj y = some o' → k' < c.fields → o'.ptr k' = .at p → ¬ (y = x ∧ k' = k) →
              (alloc h1 u).1[p]? = s.heap[p]? := by
            intro y o' k' p ho hk' hp hne
            rw [alloc_old _ _ (by rw [hl]; exact r.lt ho hk' hp)]
            apply hs
            intro hp'
            exact hne (r.uniq y x o' o k' k p ho hx hk' hk hp hp')
          apply r.replace
          · intro y o' k' p hy ho hk' hp
            exact hold y o' k' p ho hk' hp fun hh => hy hh.1
          · refine ⟨ok.num, fun k' hk' => ?_⟩
            by_cases hkk : k' = k
            · subst hkk
              simp only [put_same]
              exact alloc_get _ _
            · simp only [put_other _ _ hkk]
              exact (ok.ptr k' hk').imp fun p hp => hold x o k' p hx hk' hp fun hh => hkk hh.2
          · intro o' ho' k1 k2 p h1' h2' hp1 hp2
            cases ho'
            by_cases e1 : k1 = k
            · by_cases e2 : k2 = k
              · omega
              · subst e1
                simp only [put_same, put_other _ _ e2] at hp1 hp2
                cases hp1
                have := r.lt hx h2' hp2
                simp only [alloc] at this
                omega
            · by_cases e2 : k2 = k
              · subst e2
                simp only [put_same, put_other _ _ e1] at hp1 hp2
                cases hp2
                have := r.lt hx h1' hp1
                simp only [alloc] at this
                omega
              · simp only [put_other _ _ e1, put_other _ _ e2] at hp1 hp2
                exact (r.uniq x x o o k1 k2 p hx hx h1' h2' hp1 hp2).2
          · intro o' ho' y o'' k1 k2 p hy ho h1' h2' hp1 hp2
            cases ho'
            by_cases e1 : k1 = k
            · subst e1
              simp only [put_same] at hp1
              cases hp1
              have := r.lt ho h2' hp2
              simp only [alloc] at this
              omega
            · simp only [put_other _ _ e1] at hp1
              exact hy (r.uniq y x o'' o k2 k1 p ho hx h2' h1' hp2 hp1).1
        have okk := ok.ptr k hk
        unfold parseField parsePart
        by_cases harr : (c.field k).array
        · simp only [harr, if_true]
          cases hs : o.ptr k with
          | null =>
            rw [hs] at okk
            cases hp : a.part k with
            | null => exact ⟨key s.heap t rfl fun _ _ => rfl, rfl⟩
            | junk => rw [hp] at okk; exact okk.elim
            | val t => rw [hp] at okk; exact okk.elim
          | junk =>
            rw [hs] at okk
            cases hp : a.part k with
            | null => rw [hp] at okk; exact okk.elim
            | junk => trivial
            | val t => rw [hp] at okk; exact okk.elim
          | «at» p =>
            rw [hs] at okk
            obtain ⟨u, hp, hu⟩ := okk.live
            rw [hp]
            dsimp only
            rw [load_live hu]
            have hfree : free s.heap (.at p) = .ok (s.heap.set p ⟨false, u⟩) := by simp [free, hu]
            simp only [Res.bind_ok, hfree]
            refine ⟨key _ (u ++ t) (by simp) fun q hq => ?_, rfl⟩
            apply List.getElem?_set_ne
            intro e
            subst e
            exact hq hs
        · simp only [harr, Bool.false_eq_true, if_false]
          exact ⟨key s.heap t rfl fun _ _ => rfl, rfl⟩
      · rw [if_neg hk, if_neg hk]
        trivial
  | parseNum x num =>
    unfold State.step Parts.step
    dsimp only
    cases hx : s.obj x with
    | none =>
      rw [r.of_none hx]
      trivial
    | some o =>
      obtain ⟨a, ha, ok⟩ := r.of_some hx
      rw [ha]
      refine ⟨?_, rfl⟩
      apply r.replace
      · intro y o' k p _ _ _ _
        rfl
      · exact ⟨rfl, ok.ptr⟩
      · intro o' ho' k k' p hk hk' hp hp'
        cases ho'
        exact (r.uniq x x o o k k' p hx hx hk hk' hp hp').2
      · intro o' ho' y o'' k k' p hy ho hk hk' hp hp'
        cases ho'
        exact hy (r.uniq y x o'' o k' k p ho hx hk' hk hp' hp).1
  | look x k =>
    unfold State.step Parts.step
    dsimp only
    cases hx : s.obj x with
    | none =>
      rw [r.of_none hx]
      trivial
    | some o =>
      obtain ⟨a, ha, ok⟩ := r.of_some hx
      rw [ha]
      dsimp only
      by_cases hk : k < c.fields
      · rw [if_pos hk, if_pos hk]
        have okk := ok.ptr k hk
        cases hs : o.ptr k with
        | null =>
          rw [hs] at okk
          cases hp : a.part k with
          | null => exact ⟨r, rfl⟩
          | junk => rw [hp] at okk; exact okk.elim
          | val t => rw [hp] at okk; exact okk.elim
        | junk =>
          rw [hs] at okk
          cases hp : a.part k with
          | null => rw [hp] at okk; exact okk.elim
          | junk => trivial
          | val t => rw [hp] at okk; exact okk.elim
        | «at» p =>
          rw [hs] at okk
          obtain ⟨u, hp, hu⟩ := okk.live
          rw [hp]
          dsimp only
          rw [load_live hu]
          exact ⟨r, rfl⟩
      · rw [if_neg hk, if_neg hk]
        trivial
  | lookNum x =>
    unfold State.step Parts.step
    dsimp only
    cases hx : s.obj x with
    | none =>
      rw [r.of_none hx]
      trivial
    | some o =>
      obtain ⟨a, ha, ok⟩ := r.of_some hx
      rw [ha]
      refine ⟨r, ?_⟩
      dsimp only
      rw [ok.num]

theorem run_same (c : Class) (is : List Cmd) {s : State} {S : Nat → Option Parts} (r : Rel c.fields s S) :
    Same (After c.fields) (State.run c is s) (Parts.run c is S) := by
  induction is generalizing s S with
  | nil => exact ⟨r, rfl⟩
  | cons i is ih =>
    unfold State.run Parts.run
    refine (step_same c r i).bind fun a b h => ?_
    obtain ⟨s1, o1⟩ := a
    obtain ⟨S1, o1'⟩ := b
    obtain ⟨r1, rfl⟩ := h
    refine (ih r1).bind fun a b h => ?_
    obtain ⟨s2, o2⟩ := a
    obtain ⟨S2, o2'⟩ := b
    obtain ⟨r2, rfl⟩ := h
    exact ⟨r2, rfl⟩

theorem Same.seen {c : Class} {a : Res (State × List Seen)} {b : Res ((Nat → Option Parts) × List Seen)} (h : Same (After c.fields) a b) :
    seen a = seen b := by
  cases a with
  | ok a => cases b with
    | ok b => exact congrArg _ h.2
    | err => exact h.elim
    | ub => exact h.elim
    | abort => exact h.elim
  | err => cases b <;> first | rfl | exact h.elim
  | ub => cases b <;> first | rfl | exact h.elim
  | abort => cases b <;> first | rfl | exact h.elim

/-- **C77**, exact. What every program sees, and whether it runs into undefined behaviour, is what the specification without memory says. -/
theorem c77_exact (c : Class) (is : List Cmd) : seen (State.run c is State.init) = seen (Parts.run c is fun _ => none) :=
  (run_same c is (Rel.init c.fields)).seen


/-! ## Objects as values -/

/-- Specification: a condition holds before every command of a program on values. -/
def Along (P : (Nat → Option Value) → Cmd → Prop) (c : Class) : List Cmd → (Nat → Option Value) → Prop
  | [], _ => True
  | i :: is, v => P v i ∧ ∀ v' o, Value.step c v i = .ok (v', o) → Along P c is v'

/-- Specification: a copy that works. A new object needs all texts, except those that a plain copy of the structure makes null; an
assigned object may keep a missing text missing; an object with an array is not assigned to itself. -/
def Fine (c : Class) (v : Nat → Option Value) : Cmd → Prop
  | .copyCtor _ y => ∀ a, v y = some a → ∀ k < c.fields, a.text k = none → c.shallow = true ∧ (c.field k).always = false
  | .copyAssign x y => ∀ a' a, v x = some a' → v y = some a →
    (∀ k < c.fields, a.text k = none → (c.field k).always = false ∧ (c.shallow = true ∨ a'.text k = none)) ∧
    (x = y → ∀ k < c.fields, (c.field k).array = true → a.text k = none)
  | _ => True

/-- Auxiliary of the proofs: no garbage. -/
def ValOk (n : Nat) (a : Parts) (b : Value) : Prop := a.num = b.num ∧ ∀ k < n, a.part k = .ofOption (b.text k)

theorem copyParts_val (c : Class) (self : Bool) {src dst : Nat → Part} {f g : Nat → Option Text} (m : Nat)
    (hs : ∀ k < m, src k = .ofOption (f k)) (hd : c.shallow = false → ∀ k < m, f k = none → dst k = .ofOption (g k) ∧ g k = none)
    (ha : ∀ k < m, f k = none → (c.field k).always = false)
    (hself : self = true → ∀ k < m, (c.field k).array = true → f k = none) :
    ∃ q, copyParts c self src dst m = .ok q ∧ ∀ k < m, q k = .ofOption (f k) := by
  induction m with
  | zero => exact ⟨_, rfl, fun k hk => (by omega)⟩
  | succ m ih =>
    obtain ⟨q, hq, hv⟩ := ih (fun k hk => hs k (by omega)) (fun h k hk => hd h k (by omega)) (fun k hk => ha k (by omega))
      (fun h k hk => hself h k (by omega))
    rw [copyParts, hq]
    have last : ∀ p : Part, p = .ofOption (f m) → ∀ k < m + 1, put q m p k = .ofOption (f k) := by
      intro p hp k hk
      by_cases hkm : k = m
      · subst hkm
        rw [put_same, hp]
      · rw [put_other _ _ hkm]
        exact hv k (by omega)
    simp only [Res.bind_ok, hs m (by omega)]
    cases hf : f m with
    | none =>
      simp only [Part.ofOption, copyPart, ha m (by omega) hf, Bool.false_eq_true, if_false, Res.bind_ok]
      refine ⟨_, rfl, last _ ?_⟩
      rw [hf]
      by_cases hsh : c.shallow = true
      · rw [if_pos hsh]; rfl
      · have hsh : c.shallow = false := by simpa using hsh
        rw [if_neg (by simp [hsh]), (hd hsh m (by omega) hf).1, (hd hsh m (by omega) hf).2]
    | some t =>
      have hb : ¬ (self && (c.field m).array) = true := by
        intro hb
        rw [Bool.and_eq_true] at hb
        rw [hself hb.1 m (by omega) hb.2] at hf
        exact (nomatch hf)
      simp only [Part.ofOption, copyPart, if_neg hb, Res.bind_ok]
      exact ⟨_, rfl, last _ (by rw [hf]; rfl)⟩

theorem freeable_val (c : Class) {part : Nat → Part} {f : Nat → Option Text} (m : Nat) (h : ∀ k < m, part k = .ofOption (f k)) :
    freeable c part m = .ok () := by
  induction m with
  | zero => rfl
  | succ m ih =>
    rw [freeable, ih fun k hk => h k (by omega)]
    simp only [Res.bind_ok, h m (by omega)]
    cases f m <;> simp [Part.ofOption]

theorem optRel_put {α β : Type} {R : α → β → Prop} {f : Nat → Option α} {g : Nat → Option β} (h : ∀ x, OptRel R (f x) (g x)) (x : Nat)
    {a : Option α} {b : Option β} (hab : OptRel R a b) (y : Nat) : OptRel R (put f x a y) (put g x b y) := by
  by_cases hy : y = x
  · subst hy
    rw [put_same, put_same]
    exact hab
  · rw [put_other _ _ hy, put_other _ _ hy]
    exact h y

/-- Auxiliary of the proofs: related states, the same output. -/
def AfterV (n : Nat) (a : (Nat → Option Parts) × List Seen) (b : (Nat → Option Value) × List Seen) : Prop :=
  (∀ x, OptRel (ValOk n) (a.1 x) (b.1 x)) ∧ a.2 = b.2

theorem vstep_same (c : Class) {S : Nat → Option Parts} {v : Nat → Option Value} (r : ∀ x, OptRel (ValOk c.fields) (S x) (v x)) (i : Cmd)
    (fine : Fine c v i) : Same (AfterV c.fields) (Parts.step c S i) (Value.step c v i) := by
  have some_of : ∀ {x : Nat} {a : Parts}, S x = some a → ∃ b, v x = some b ∧ ValOk c.fields a b := by
    intro x a h
    have := r x
    rw [h] at this
    exact this.of_some
  have none_of : ∀ {x : Nat}, S x = none → v x = none := by
    intro x h
    have := r x
    rw [h] at this
    exact this.of_none
  cases i with
  | make x num vals =>
    unfold Parts.step Value.step
    dsimp only
    cases hx : S x with
    | some a =>
      obtain ⟨b, hb, _⟩ := some_of hx
      rw [hb]
      trivial
    | none =>
      rw [none_of hx]
      exact ⟨optRel_put r x ⟨rfl, fun _ _ => rfl⟩, rfl⟩
  | copyCtor x y =>
    unfold Parts.step Value.step
    dsimp only
    cases hx : S x with
    | some a =>
      obtain ⟨b, hb, _⟩ := some_of hx
      rw [hb]
      trivial
    | none =>
      rw [none_of hx]
      cases hy : S y with
      | none =>
        rw [none_of hy]
        trivial
      | some a =>
        obtain ⟨b, hb, ok⟩ := some_of hy
        rw [hb]
        have fine := fine b hb
        obtain ⟨q, hq, hv⟩ := copyParts_val c false (dst := fun _ => .junk) (g := fun _ => none) c.fields ok.2
          (fun hsh k hk h => by rw [(fine k hk h).1] at hsh; exact (nomatch hsh)) (fun k hk h => (fine k hk h).2)
          (fun h => (nomatch h))
        dsimp only
        rw [hq]
        exact ⟨optRel_put r x ⟨ok.1, hv⟩, rfl⟩
  | moveCtor x y =>
    unfold Parts.step Value.step
    dsimp only
    cases hx : S x with
    | some a =>
      obtain ⟨b, hb, _⟩ := some_of hx
      rw [hb]
      trivial
    | none =>
      rw [none_of hx]
      cases hy : S y with
      | none =>
        rw [none_of hy]
        trivial
      | some a =>
        obtain ⟨b, hb, ok⟩ := some_of hy
        rw [hb]
        exact ⟨optRel_put (optRel_put r x (a := some a) (b := some b) ok) y ⟨by dsimp only; rw [ok.1], fun _ _ => rfl⟩, rfl⟩
  | copyAssign x y =>
    unfold Parts.step Value.step
    dsimp only
    cases hx : S x with
    | none =>
      rw [none_of hx]
      trivial
    | some a' =>
      obtain ⟨b', hb', ok'⟩ := some_of hx
      rw [hb']
      cases hy : S y with
      | none =>
        rw [none_of hy]
        trivial
      | some a =>
        obtain ⟨b, hb, ok⟩ := some_of hy
        rw [hb]
        obtain ⟨fine, fineSelf⟩ := fine b' b hb' hb
        obtain ⟨q, hq, hv⟩ := copyParts_val c (x == y) (dst := a'.part) (g := b'.text) c.fields ok.2
          (fun hsh k hk h => ⟨ok'.2 k hk, by
            rcases (fine k hk h).2 with h1 | h1
            · rw [h1] at hsh; exact (nomatch hsh)
            · exact h1⟩) (fun k hk h => (fine k hk h).1)
          (fun h => fineSelf (by simpa using h))
        dsimp only
        rw [hq]
        exact ⟨optRel_put r x ⟨ok.1, hv⟩, rfl⟩
  | moveAssign x y =>
    unfold Parts.step Value.step
    dsimp only
    cases hx : S x with
    | none =>
      rw [none_of hx]
      trivial
    | some a' =>
      obtain ⟨b', hb', ok'⟩ := some_of hx
      rw [hb']
      cases hy : S y with
      | none =>
        rw [none_of hy]
        trivial
      | some a =>
        obtain ⟨b, hb, ok⟩ := some_of hy
        rw [hb]
        exact ⟨optRel_put (optRel_put r x (a := some a) (b := some b) ok) y ⟨by dsimp only; rw [ok.1], fun _ _ => rfl⟩, rfl⟩
  | destroy x =>
    unfold Parts.step Value.step
    dsimp only
    cases hx : S x with
    | none =>
      rw [none_of hx]
      trivial
    | some a =>
      obtain ⟨b, hb, ok⟩ := some_of hx
      rw [hb]
      dsimp only
      rw [freeable_val c c.fields ok.2]
      exact ⟨optRel_put r x trivial, rfl⟩
  | parse x k t =>
    unfold Parts.step Value.step
    dsimp only
    cases hx : S x with
    | none =>
      rw [none_of hx]
      trivial
    | some a =>
      obtain ⟨b, hb, ok⟩ := some_of hx
      rw [hb]
      dsimp only
      by_cases hk : k < c.fields
      · rw [if_pos hk, if_pos hk]
        have key : parsePart (c.field k) (a.part k) t = .ok (.ofOption (extend (c.field k) (b.text k) t)) := by
          rw [ok.2 k hk]
          unfold parsePart extend
          by_cases h : (c.field k).array = true
          · rw [if_pos h, if_pos h]
            cases b.text k <;> rfl
          · rw [if_neg h, if_neg h]
            rfl
        rw [key]
        refine ⟨optRel_put r x ⟨ok.1, fun k' hk' => ?_⟩, rfl⟩
        by_cases hkk : k' = k
        · subst hkk
          simp only [put_same]
        · simp only [put_other _ _ hkk]
          exact ok.2 k' hk'
      · rw [if_neg hk, if_neg hk]
        trivial
  | parseNum x num =>
    unfold Parts.step Value.step
    dsimp only
    cases hx : S x with
    | none =>
      rw [none_of hx]
      trivial
    | some a =>
      obtain ⟨b, hb, ok⟩ := some_of hx
      rw [hb]
      exact ⟨optRel_put r x ⟨rfl, ok.2⟩, rfl⟩
  | look x k =>
    unfold Parts.step Value.step
    dsimp only
    cases hx : S x with
    | none =>
      rw [none_of hx]
      trivial
    | some a =>
      obtain ⟨b, hb, ok⟩ := some_of hx
      rw [hb]
      dsimp only
      by_cases hk : k < c.fields
      · rw [if_pos hk, if_pos hk, ok.2 k hk]
        cases b.text k <;> exact ⟨r, rfl⟩
      · rw [if_neg hk, if_neg hk]
        trivial
  | lookNum x =>
    unfold Parts.step Value.step
    dsimp only
    cases hx : S x with
    | none =>
      rw [none_of hx]
      trivial
    | some a =>
      obtain ⟨b, hb, ok⟩ := some_of hx
      rw [hb]
      dsimp only
      rw [ok.1]
      exact ⟨r, rfl⟩

theorem vrun_same (c : Class) (is : List Cmd) {S : Nat → Option Parts} {v : Nat → Option Value}
    (r : ∀ x, OptRel (ValOk c.fields) (S x) (v x)) (fine : Along (Fine c) c is v) :
    Same (AfterV c.fields) (Parts.run c is S) (Value.run c is v) := by
  induction is generalizing S v with
  | nil => exact ⟨r, rfl⟩
  | cons i is ih =>
    unfold Parts.run Value.run
    have h1 := vstep_same c r i fine.1
    have h2 := fine.2
    cases hv : Value.step c v i with
    | ok b =>
      rw [hv] at h1
      cases hp : Parts.step c S i with
      | ok a =>
        rw [hp] at h1
        obtain ⟨S1, o1⟩ := a
        obtain ⟨v1, o1'⟩ := b
        obtain ⟨r1, e⟩ := h1
        dsimp only at r1 e
        subst e
        refine (ih r1 (h2 v1 o1 hv)).bind fun a b h => ?_
        obtain ⟨s2, o2⟩ := a
        obtain ⟨S2, o2'⟩ := b
        obtain ⟨r2, rfl⟩ := h
        exact ⟨r2, rfl⟩
      | err => rw [hp] at h1; exact h1.elim
      | ub => rw [hp] at h1; exact h1.elim
      | abort => rw [hp] at h1; exact h1.elim
    | err =>
      rw [hv] at h1
      cases hp : Parts.step c S i with
      | ok a => rw [hp] at h1; exact h1.elim
      | err => trivial
      | ub => rw [hp] at h1; exact h1.elim
      | abort => rw [hp] at h1; exact h1.elim
    | ub =>
      rw [hv] at h1
      cases hp : Parts.step c S i with
      | ok a => rw [hp] at h1; exact h1.elim
      | err => rw [hp] at h1; exact h1.elim
      | ub => trivial
      | abort => rw [hp] at h1; exact h1.elim
    | abort =>
      rw [hv] at h1
      cases hp : Parts.step c S i with
      | ok a => rw [hp] at h1; exact h1.elim
      | err => rw [hp] at h1; exact h1.elim
      | ub => rw [hp] at h1; exact h1.elim
      | abort => trivial

theorem SameV.seen {m : Nat} {a : Res ((Nat → Option Parts) × List Seen)} {b : Res ((Nat → Option Value) × List Seen)}
    (h : Same (AfterV m) a b) : seen a = seen b := by
  cases a with
  | ok a => cases b with
    | ok b => exact congrArg _ h.2
    | err => exact h.elim
    | ub => exact h.elim
    | abort => exact h.elim
  | err => cases b <;> first | rfl | exact h.elim
  | ub => cases b <;> first | rfl | exact h.elim
  | abort => cases b <;> first | rfl | exact h.elim

/-- Both classes: programs whose copies are fine see exactly what programs on values see. -/
theorem values (c : Class) (is : List Cmd) (fine : Along (Fine c) c is fun _ => none) :
    seen (State.run c is State.init) = seen (Value.run c is fun _ => none) :=
  (c77_exact c is).trans (SameV.seen (vrun_same c is (fun _ => trivial) fine))

theorem Along.imp {P Q : (Nat → Option Value) → Cmd → Prop} {c : Class} (h : ∀ v i, P v i → Q v i) (is : List Cmd) {v : Nat → Option Value}
    (a : Along P c is v) : Along Q c is v := by
  induction is generalizing v with
  | nil => trivial
  | cons i is ih => exact ⟨h _ _ a.1, fun v' o e => ih (a.2 v' o e)⟩

/-- Specification: only objects with a file name are copied. -/
def HasFileName (v : Nat → Option Value) : Cmd → Prop
  | .copyCtor _ y | .copyAssign _ y => ∀ a, v y = some a → a.text 0 ≠ none
  | _ => True

/-- **C77** (partial: the objects that are copied have a file name). Programs with any number of `IncludeTransform` objects behave as
programs on values: every object has its own numbers and texts, copies are equal to the original and independent of it, no memory
is used after it was freed. -/
theorem c77_include_transform_partial (is : List Cmd) (h : Along HasFileName includeTransform is fun _ => none) :
    seen (State.run includeTransform is State.init) = seen (Value.run includeTransform is fun _ => none) := by
  refine values _ is (h.imp (fun v i hi => ?_) is)
  have key : ∀ (a : Value) (k : Nat), a.text 0 ≠ none → a.text k = none → (includeTransform.field k).always = false := by
    intro a k h0 hk
    by_cases hk0 : k = 0
    · subst hk0
      exact absurd hk h0
    · simp [includeTransform, hk0]
  cases i with
  | copyCtor x y => exact fun a ha k _ hn => ⟨rfl, key a k (hi a ha) hn⟩
  | copyAssign x y => exact fun a' a _ ha => ⟨fun k _ hn => ⟨key a k (hi a ha) hn, .inl rfl⟩, fun _ k _ harr => (nomatch harr)⟩
  | _ => trivial

/-- Specification: only objects with a title and at least one option are copied, and no object is assigned to itself. -/
def Complete (v : Nat → Option Value) : Cmd → Prop
  | .copyCtor _ y => ∀ a, v y = some a → a.text 0 ≠ none ∧ a.text 1 ≠ none
  | .copyAssign x y => x ≠ y ∧ ∀ a, v y = some a → a.text 0 ≠ none ∧ a.text 1 ≠ none
  | _ => True

/-- **C77** (partial: the objects that are copied have a title and options, and no object is assigned to itself). Programs with any
number of `DefineTransformation` objects behave as programs on values. -/
theorem c77_define_transformation_partial (is : List Cmd) (h : Along Complete defineTransformation is fun _ => none) :
    seen (State.run defineTransformation is State.init) = seen (Value.run defineTransformation is fun _ => none) := by
  refine values _ is (h.imp (fun v i hi => ?_) is)
  have key : ∀ (a : Value) (k : Nat), a.text 0 ≠ none ∧ a.text 1 ≠ none → k < 2 → a.text k ≠ none := by
    intro a k h0 hk
    match k, hk with
    | 0, _ => exact h0.1
    | 1, _ => exact h0.2
  cases i with
  | copyCtor x y => exact fun a ha k hk hn => absurd hn (key a k (hi a ha) hk)
  | copyAssign x y => exact fun a' a _ ha => ⟨fun k hk hn => absurd hn (key a k (hi.2 a ha) hk), fun e => absurd e hi.1⟩
  | _ => trivial

/-! ## Where objects are no values -/

theorem run_append (c : Class) (is js : List Cmd) (s : State) : State.run c (is ++ js) s = (do
    let (s, out) ← State.run c is s
    let (s, out') ← State.run c js s
    .ok (s, out ++ out')) := by
  induction is generalizing s with
  | nil =>
    simp only [List.nil_append, State.run, Res.bind_ok]
    cases State.run c js s with
    | ok a => rfl
    | err => rfl
    | ub => rfl
    | abort => rfl
  | cons i is ih =>
    simp only [List.cons_append, State.run]
    cases s.step c i with
    | ok a =>
      obtain ⟨s1, o1⟩ := a
      simp only [Res.bind_ok, ih]
      cases State.run c is s1 with
      | ok b =>
        obtain ⟨s2, o2⟩ := b
        simp only [Res.bind_ok]
        cases State.run c js s2 with
        | ok d => simp only [Res.bind_ok, List.append_assoc]
        | err => rfl
        | ub => rfl
        | abort => rfl
      | err => rfl
      | ub => rfl
      | abort => rfl
    | err => rfl
    | ub => rfl
    | abort => rfl

theorem reach (c : Class) {is : List Cmd} {s : State} {out : List Seen} (h : State.run c is State.init = .ok (s, out)) :
    ∃ S : Nat → Option Parts, Rel c.fields s S := by
  have := run_same c is (Rel.init c.fields)
  rw [h] at this
  cases hp : Parts.run c is fun _ => none with
  | ok b => rw [hp] at this; exact ⟨b.1, this.1⟩
  | err => rw [hp] at this; exact this.elim
  | ub => rw [hp] at this; exact this.elim
  | abort => rw [hp] at this; exact this.elim

/-- A member without a text in the source keeps whatever the copy has there before. -/
theorem copyFields_null (c : Class) (self : Bool) (src dst : Nat → Ptr) {k : Nat} (hk : src k = .null) (m : Nat) {h h' : Heap} {f : Nat → Ptr}
    (e : copyFields c self src dst m h = .ok (h', f)) : f k = if c.shallow then .null else dst k := by
  induction m generalizing h' f with
  | zero =>
    simp only [copyFields, Res.ok.injEq, Prod.mk.injEq] at e
    rw [← e.2]
    split
    · exact hk
    · rfl
  | succ m ih =>
    rw [copyFields] at e
    cases h1 : copyFields c self src dst m h with
    | ok r =>
      obtain ⟨h2, g⟩ := r
      simp only [h1, Res.bind_ok] at e
      cases h3 : copyField (c.field m) self h2 (src m) (if c.shallow then src m else dst m) with
      | ok r =>
        obtain ⟨h4, p⟩ := r
        simp only [h3, Res.bind_ok, Res.ok.injEq, Prod.mk.injEq] at e
        rw [← e.2]
        by_cases hkm : k = m
        · subst hkm
          rw [put_same]
          rw [hk] at h3
          unfold copyField at h3
          dsimp only at h3
          split at h3
          · exact (nomatch h3)
          · simp only [Res.ok.injEq, Prod.mk.injEq] at h3
            rw [← h3.2]
        · rw [put_other _ _ hkm]
          exact ih h1
      | err => simp [h3] at e
      | ub => simp [h3] at e
      | abort => simp [h3] at e
    | err => simp [h1] at e
    | ub => simp [h1] at e
    | abort => simp [h1] at e

theorem freeFields_junk (c : Class) {ptr : Nat → Ptr} {k : Nat} (hk : ptr k = .junk) (hf : (c.field k).freed = true) (m : Nat) (hm : k < m) (h h' : Heap) :
    freeFields c ptr m h ≠ .ok h' := by
  induction m generalizing h' with
  | zero => omega
  | succ m ih =>
    rw [freeFields]
    by_cases hkm : k = m
    · subst hkm
      cases freeFields c ptr k h with
      | ok h1 => simp only [Res.bind_ok, hf, if_true, hk, free]; exact fun e => (nomatch e)
      | err => exact fun e => (nomatch e)
      | ub => exact fun e => (nomatch e)
      | abort => exact fun e => (nomatch e)
    · cases h1 : freeFields c ptr m h with
      | ok h2 => exact absurd h1 (ih (by omega) h2)
      | err => exact fun e => (nomatch e)
      | ub => exact fun e => (nomatch e)
      | abort => exact fun e => (nomatch e)

/-- Auxiliary of the proofs: with a live source and target only success or undefined behaviour are possible. -/
theorem copyFields_cases (c : Class) (self : Bool) (src dst : Nat → Ptr) (m : Nat) (h : Heap) :
    (∃ r, copyFields c self src dst m h = .ok r) ∨ copyFields c self src dst m h = .ub := by
  induction m with
  | zero => exact .inl ⟨_, rfl⟩
  | succ m ih =>
    rcases ih with ⟨⟨h1, g⟩, e⟩ | e
    · rw [copyFields, e]
      simp only [Res.bind_ok]
      unfold copyField load
      cases src m with
      | null => dsimp only; split <;> simp
      | junk => exact .inr rfl
      | «at» p =>
        dsimp only
        split
        · exact .inr rfl
        · split <;> simp
    · rw [copyFields, e]
      exact .inr rfl

theorem freeFields_cases (c : Class) (ptr : Nat → Ptr) (m : Nat) (h : Heap) :
    (∃ r, freeFields c ptr m h = .ok r) ∨ freeFields c ptr m h = .ub := by
  induction m with
  | zero => exact .inl ⟨_, rfl⟩
  | succ m ih =>
    rcases ih with ⟨h1, e⟩ | e
    · rw [freeFields, e]
      simp only [Res.bind_ok]
      split
      · unfold free
        cases ptr m with
        | null => exact .inl ⟨_, rfl⟩
        | junk => exact .inr rfl
        | «at» p => dsimp only; split <;> simp
      · exact .inl ⟨_, rfl⟩
    · rw [freeFields, e]
      exact .inr rfl

/-- **C77**, violated. A copy of a `DefineTransformation` without title (every keyword that is no `_TITLE`) or without options cannot
be destroyed: the constructor leaves the members uninitialised and the destructor frees them. -/
theorem c77_copy_of_untitled (is : List Cmd) (x y k : Nat) {s : State} {out : List Seen} {o : Obj}
    (h : State.run defineTransformation is State.init = .ok (s, out)) (hx : s.obj x = none) (hy : s.obj y = some o) (hk : k < 2)
    (hn : o.ptr k = .null) : State.run defineTransformation (is ++ [.copyCtor x y, .destroy x]) State.init = .ub := by
  rw [run_append, h]
  simp only [Res.bind_ok, State.run, State.step, hx, hy]
  rcases copyFields_cases defineTransformation false o.ptr (fun _ => .junk) defineTransformation.fields s.heap with ⟨⟨h1, f⟩, e⟩ | e
  · have hf := copyFields_null _ _ _ _ hn _ e
    have hf : f k = .junk := hf
    simp only [e, Res.bind_ok, put_same]
    rcases freeFields_cases defineTransformation f defineTransformation.fields h1 with ⟨h2, e2⟩ | e2
    · exact absurd e2 (freeFields_junk _ hf rfl _ hk _ _)
    · rw [e2]
      rfl
  · rw [e]
    rfl

/-- **C77**, violated. Copying an `IncludeTransform` without file name (a keyword without cards, or a default constructed object)
duplicates a null pointer. -/
theorem c77_copy_without_file_name (is : List Cmd) (x y : Nat) {s : State} {out : List Seen} {o : Obj}
    (h : State.run includeTransform is State.init = .ok (s, out)) (hy : s.obj y = some o) (hn : o.ptr 0 = .null) :
    (s.obj x = none → State.run includeTransform (is ++ [.copyCtor x y]) State.init = .ub) ∧
    (s.obj x ≠ none → State.run includeTransform (is ++ [.copyAssign x y]) State.init = .ub) := by
  have key : ∀ (self : Bool) (dst : Nat → Ptr) (m : Nat), copyFields includeTransform self o.ptr dst (m + 1) s.heap = .ub := by
    intro self dst m
    induction m with
    | zero =>
      rw [copyFields, copyFields]
      simp only [Res.bind_ok, hn]
      rfl
    | succ m ih =>
      rw [copyFields, ih]
      rfl
  constructor
  · intro hx
    rw [run_append, h]
    simp only [Res.bind_ok, State.run, State.step, hx, hy]
    have : includeTransform.fields = 3 + 1 := rfl
    rw [this, key]
    rfl
  · intro hx
    rw [run_append, h]
    cases hxo : s.obj x with
    | none => exact absurd hxo hx
    | some o' =>
      simp only [Res.bind_ok, State.run, State.step, hxo, hy]
      have : includeTransform.fields = 3 + 1 := rfl
      rw [this, key]
      rfl

/-- **C77**, violated. Assigning a `DefineTransformation` without title (or options) leaves the title (or options) of the target: the
target shows the text that it had before. -/
theorem c77_stale_title (is : List Cmd) (x y k : Nat) {s : State} {out out' : List Seen} {o : Obj} {t : Text} {s' : State}
    (h : State.run defineTransformation is State.init = .ok (s, out)) (hy : s.obj y = some o) (hk : k < 2)
    (hn : o.ptr k = .null) (hold : State.run defineTransformation (is ++ [.look x k]) State.init = .ok (s, out ++ [.text (some t)]))
    (hc : State.run defineTransformation (is ++ [.copyAssign x y]) State.init = .ok (s', out')) :
    State.run defineTransformation (is ++ [.copyAssign x y, .look x k]) State.init = .ok (s', out ++ [.text (some t)]) := by
  obtain ⟨S, r⟩ := reach _ h
  rw [run_append, h] at hold hc ⊢
  simp only [Res.bind_ok, State.run, State.step] at hold hc ⊢
  cases hx : s.obj x with
  | none => simp [hx] at hold
  | some o' =>
    have hk' : k < defineTransformation.fields := hk
    simp only [hx, hy, hk', if_true] at hold hc ⊢
    rcases copyFields_cases defineTransformation (x == y) o.ptr o'.ptr defineTransformation.fields s.heap with ⟨⟨h1, f⟩, e⟩ | e
    · have hf : f k = o'.ptr k := copyFields_null _ _ _ _ hn _ e
      simp only [e, Res.bind_ok, List.append_nil, Res.ok.injEq, Prod.mk.injEq] at hc
      simp only [e, Res.bind_ok, put_same, hf]
      cases hp : o'.ptr k with
      | null => simp [hp] at hold
      | junk => simp [hp] at hold
      | «at» p =>
        obtain ⟨a', _, ok'⟩ := r.of_some hx
        obtain ⟨a, _, ok⟩ := r.of_some hy
        have okk := ok'.ptr k hk'
        rw [hp] at okk
        obtain ⟨u, _, hu⟩ := okk.live
        simp only [hp, load_live hu, Res.bind_ok, List.append_nil, Res.ok.injEq, Prod.mk.injEq, List.append_cancel_left_eq,
          List.cons.injEq, Seen.text.injEq, Option.some.injEq, and_true, true_and] at hold
        have hs := copyFields_same defineTransformation (x == y) defineTransformation.fields ok.ptr ok'.ptr
        rw [e] at hs
        have hu1 : h1[p]? = some ⟨true, u⟩ := by
          cases hc2 : copyParts defineTransformation (x == y) a.part a'.part defineTransformation.fields with
          | ok q =>
            rw [hc2] at hs
            rw [hs.1.same p (List.getElem?_eq_some_iff.mp hu).1, hu]
          | err => rw [hc2] at hs; exact hs.elim
          | ub => rw [hc2] at hs; exact hs.elim
          | abort => rw [hc2] at hs; exact hs.elim
        simp only [load_live hu1, Res.bind_ok, List.append_nil, List.nil_append, hc.1, hold]
    · simp [e] at hc

/-- **C77**, violated. Assigning a `DefineTransformation` with options to itself reads uninitialised memory. -/
theorem c77_self_assignment (is : List Cmd) (x p : Nat) {s : State} {out : List Seen} {o : Obj}
    (h : State.run defineTransformation is State.init = .ok (s, out)) (hx : s.obj x = some o) (hp : o.ptr 1 = .at p) :
    State.run defineTransformation (is ++ [.copyAssign x x]) State.init = .ub := by
  rw [run_append, h]
  simp only [Res.bind_ok, State.run, State.step, hx, beq_self_eq_true]
  have e : copyFields defineTransformation true o.ptr o.ptr defineTransformation.fields s.heap = .ub := by
    show copyFields defineTransformation true o.ptr o.ptr (1 + 1) s.heap = .ub
    rw [copyFields]
    rcases copyFields_cases defineTransformation true o.ptr o.ptr 1 s.heap with ⟨⟨h1, f⟩, e⟩ | e
    · rw [e]
      simp only [Res.bind_ok, hp]
      rfl
    · rw [e]
      rfl
  rw [e]
  rfl

/-! ## Memory that is never freed -/

/-- Specification: a block is allocated, and no object frees it when it is destroyed. -/
def Lost (c : Class) (s : State) (p : Nat) (t : Text) : Prop :=
  s.heap[p]? = some ⟨true, t⟩ ∧
    ∀ x o k, s.obj x = some o → k < c.fields → ((c.field k).freed = true ∨ (c.field k).array = true) → o.ptr k ≠ .at p

theorem copyFields_fresh (c : Class) (self : Bool) {h : Heap} {src dst : Nat → Ptr} {srcP dstP : Nat → Part} (m : Nat)
    (ok : ∀ k < m, PtrOk h (src k) (srcP k)) (ok' : ∀ k < m, PtrOk h (dst k) (dstP k)) {h' : Heap} {f : Nat → Ptr}
    (e : copyFields c self src dst m h = .ok (h', f)) : Fresh m h h' f dst := by
  have hs := copyFields_same c self m ok ok'
  rw [e] at hs
  cases hc : copyParts c self srcP dstP m with
  | ok q => rw [hc] at hs; exact hs.1
  | err => rw [hc] at hs; exact hs.elim
  | ub => rw [hc] at hs; exact hs.elim
  | abort => rw [hc] at hs; exact hs.elim

theorem freeFields_keeps (c : Class) {h : Heap} {ptr : Nat → Ptr} {part : Nat → Part} (m : Nat) (ok : ∀ k < m, PtrOk h (ptr k) (part k))
    (uniq : ∀ k k' p, k < m → k' < m → ptr k = .at p → ptr k' = .at p → k = k') {h' : Heap} (e : freeFields c ptr m h = .ok h')
    {p : Nat} (hp : ∀ k < m, (c.field k).freed = true → ptr k ≠ .at p) : h'[p]? = h[p]? := by
  have hs := freeFields_same c m ok uniq
  rw [e] at hs
  cases hc : freeable c part m with
  | ok q => rw [hc] at hs; exact hs.2 p hp
  | err => rw [hc] at hs; exact hs.elim
  | ub => rw [hc] at hs; exact hs.elim
  | abort => rw [hc] at hs; exact hs.elim

theorem lost_put {c : Class} {s : State} {p : Nat} {t : Text} (l : Lost c s p t) {h' : Heap} (hh : h'[p]? = s.heap[p]?) {x : Nat} {o : Option Obj}
    (ho : ∀ o', o = some o' → ∀ k < c.fields, ((c.field k).freed = true ∨ (c.field k).array = true) → o'.ptr k ≠ .at p) :
    Lost c ⟨h', put s.obj x o⟩ p t := by
  refine ⟨by show h'[p]? = _; rw [hh, l.1], fun y o' k hy hk hf => ?_⟩
  change put s.obj x o y = some o' at hy
  by_cases hyx : y = x
  · subst hyx
    rw [put_same] at hy
    exact ho o' hy k hk hf
  · rw [put_other _ _ hyx] at hy
    exact l.2 y o' k hy hk hf

theorem lost_step {c : Class} {s s' : State} {S : Nat → Option Parts} (r : Rel c.fields s S) {p : Nat} {t : Text} (l : Lost c s p t)
    {i : Cmd} {out : List Seen} (e : s.step c i = .ok (s', out)) : Lost c s' p t := by
  have hlt : p < s.heap.length := (List.getElem?_eq_some_iff.mp l.1).1
  cases i with
  | make x num vals =>
    unfold State.step at e
    dsimp only at e
    cases hx : s.obj x with
    | some o => simp [hx] at e
    | none =>
      simp only [hx, Res.ok.injEq, Prod.mk.injEq] at e
      rw [← e.1]
      obtain ⟨F, _⟩ := makeFields_fresh vals c.fields s.heap
      refine lost_put l (F.same p hlt) fun o' ho' k hk _ hp => ?_
      cases ho'
      rcases F.ptr k hk p hp with h1 | h1
      · omega
      · exact (nomatch h1)
  | copyCtor x y =>
    unfold State.step at e
    dsimp only at e
    cases hx : s.obj x with
    | some o => simp [hx] at e
    | none =>
      cases hy : s.obj y with
      | none => simp [hx, hy] at e
      | some o =>
        simp only [hx, hy] at e
        obtain ⟨a, _, ok⟩ := r.of_some hy
        rcases copyFields_cases c false o.ptr (fun _ => .junk) c.fields s.heap with ⟨⟨h1, f⟩, ec⟩ | ec
        · have F := copyFields_fresh c false c.fields ok.ptr (dst := fun _ => .junk) (dstP := fun _ => .junk) (fun _ _ => trivial) ec
          simp only [ec, Res.bind_ok, Res.ok.injEq, Prod.mk.injEq] at e
          rw [← e.1]
          refine lost_put l (F.same p hlt) fun o' ho' k hk _ hp => ?_
          cases ho'
          rcases F.ptr k hk p hp with h1 | h1
          · omega
          · exact (nomatch h1)
        · simp [ec] at e
  | moveCtor x y =>
    unfold State.step at e
    dsimp only at e
    cases hx : s.obj x with
    | some o => simp [hx] at e
    | none =>
      cases hy : s.obj y with
      | none => simp [hx, hy] at e
      | some o =>
        simp only [hx, hy, Res.ok.injEq, Prod.mk.injEq] at e
        rw [← e.1]
        have l1 : Lost c ⟨s.heap, put s.obj x (some o)⟩ p t := lost_put l rfl fun o' ho' k hk hf => by
          cases ho'
          exact l.2 y o k hy hk hf
        refine lost_put l1 rfl fun o' ho' k hk _ hp => ?_
        cases ho'
        exact (nomatch hp)
  | copyAssign x y =>
    unfold State.step at e
    dsimp only at e
    cases hx : s.obj x with
    | none => simp [hx] at e
    | some o1 =>
      cases hy : s.obj y with
      | none => simp [hx, hy] at e
      | some o =>
        simp only [hx, hy] at e
        obtain ⟨a, _, ok⟩ := r.of_some hy
        obtain ⟨a1, _, ok1⟩ := r.of_some hx
        rcases copyFields_cases c (x == y) o.ptr o1.ptr c.fields s.heap with ⟨⟨h1, f⟩, ec⟩ | ec
        · have F := copyFields_fresh c (x == y) c.fields ok.ptr ok1.ptr ec
          simp only [ec, Res.bind_ok, Res.ok.injEq, Prod.mk.injEq] at e
          rw [← e.1]
          refine lost_put l (F.same p hlt) fun o' ho' k hk hf hp => ?_
          cases ho'
          rcases F.ptr k hk p hp with h1 | h1
          · omega
          · exact l.2 x o1 k hx hk hf h1
        · simp [ec] at e
  | moveAssign x y =>
    unfold State.step at e
    dsimp only at e
    cases hx : s.obj x with
    | none => simp [hx] at e
    | some o1 =>
      cases hy : s.obj y with
      | none => simp [hx, hy] at e
      | some o =>
        simp only [hx, hy, Res.ok.injEq, Prod.mk.injEq] at e
        rw [← e.1]
        have l1 : Lost c ⟨s.heap, put s.obj x (some o)⟩ p t := lost_put l rfl fun o' ho' k hk hf => by
          cases ho'
          exact l.2 y o k hy hk hf
        refine lost_put l1 rfl fun o' ho' k hk _ hp => ?_
        cases ho'
        exact (nomatch hp)
  | destroy x =>
    unfold State.step at e
    dsimp only at e
    cases hx : s.obj x with
    | none => simp [hx] at e
    | some o =>
      simp only [hx] at e
      obtain ⟨a, _, ok⟩ := r.of_some hx
      rcases freeFields_cases c o.ptr c.fields s.heap with ⟨h1, ec⟩ | ec
      · have K := freeFields_keeps c c.fields ok.ptr (fun k k' p hk hk' hp hp' => (r.uniq x x o o k k' p hx hx hk hk' hp hp').2) ec
          (p := p) (fun k hk hf => l.2 x o k hx hk (.inl hf))
        simp only [ec, Res.bind_ok, Res.ok.injEq, Prod.mk.injEq] at e
        rw [← e.1]
        exact lost_put l K fun o' ho' => (nomatch ho')
      · simp [ec] at e
  | parse x k u =>
    unfold State.step at e
    dsimp only at e
    cases hx : s.obj x with
    | none => simp [hx] at e
    | some o =>
      simp only [hx] at e
      by_cases hk : k < c.fields
      · rw [if_pos hk] at e
        have key : ∀ (h1 : Heap) (w : Text), h1.length = s.heap.length → h1[p]? = s.heap[p]? →
            Lost c ⟨(alloc h1 w).1, put s.obj x (some ⟨o.num, put o.ptr k (.at (alloc h1 w).2)⟩)⟩ p t := by
          intro h1 w hl hs
          refine lost_put l ?_ fun o' ho' k' hk' hf hp => ?_
          · rw [alloc_old _ _ (by omega), hs]
          · cases ho'
            by_cases hkk : k' = k
            · subst hkk
              simp only [put_same, alloc] at hp
              cases hp
              omega
            · simp only [put_other _ _ hkk] at hp
              exact l.2 x o k' hx hk' hf hp
        unfold parseField at e
        by_cases harr : (c.field k).array = true
        · simp only [harr, if_true] at e
          cases hs : o.ptr k with
          | null =>
            simp only [hs, Res.bind_ok, Res.ok.injEq, Prod.mk.injEq] at e
            rw [← e.1]
            exact key _ _ rfl rfl
          | junk => simp [hs] at e
          | «at» q =>
            obtain ⟨a, _, ok⟩ := r.of_some hx
            have okk := ok.ptr k hk
            rw [hs] at okk
            obtain ⟨w, _, hw⟩ := okk.live
            have hfree : free s.heap (.at q) = .ok (s.heap.set q ⟨false, w⟩) := by simp [free, hw]
            simp only [hs, load_live hw, hfree, Res.bind_ok, Res.ok.injEq, Prod.mk.injEq] at e
            rw [← e.1]
            refine key _ _ (by simp) (List.getElem?_set_ne fun hqp => ?_)
            subst hqp
            exact l.2 x o k hx hk (.inr harr) hs
        · simp only [harr, Bool.false_eq_true, if_false, Res.bind_ok, Res.ok.injEq, Prod.mk.injEq] at e
          rw [← e.1]
          exact key _ _ rfl rfl
      · rw [if_neg hk] at e
        exact (nomatch e)
  | parseNum x num =>
    unfold State.step at e
    dsimp only at e
    cases hx : s.obj x with
    | none => simp [hx] at e
    | some o =>
      simp only [hx, Res.ok.injEq, Prod.mk.injEq] at e
      rw [← e.1]
      refine lost_put l rfl fun o' ho' k hk hf => ?_
      cases ho'
      exact l.2 x o k hx hk hf
  | look x k =>
    unfold State.step at e
    dsimp only at e
    cases hx : s.obj x with
    | none => simp [hx] at e
    | some o =>
      simp only [hx] at e
      by_cases hk : k < c.fields
      · rw [if_pos hk] at e
        cases hs : o.ptr k with
        | null =>
          simp only [hs, Res.ok.injEq, Prod.mk.injEq] at e
          rw [← e.1]
          exact l
        | junk => simp [hs] at e
        | «at» q =>
          obtain ⟨a, _, ok⟩ := r.of_some hx
          have okk := ok.ptr k hk
          rw [hs] at okk
          obtain ⟨w, _, hw⟩ := okk.live
          simp only [hs, load_live hw, Res.bind_ok, Res.ok.injEq, Prod.mk.injEq] at e
          rw [← e.1]
          exact l
      · rw [if_neg hk] at e
        exact (nomatch e)
  | lookNum x =>
    unfold State.step at e
    dsimp only at e
    cases hx : s.obj x with
    | none => simp [hx] at e
    | some o =>
      simp only [hx, Res.ok.injEq, Prod.mk.injEq] at e
      rw [← e.1]
      exact l

theorem Rel.step {c : Class} {s s' : State} {S : Nat → Option Parts} (r : Rel c.fields s S) {i : Cmd} {out : List Seen}
    (e : s.step c i = .ok (s', out)) : ∃ S' : Nat → Option Parts, Rel c.fields s' S' := by
  have := step_same c r i
  rw [e] at this
  cases hp : Parts.step c S i with
  | ok b => rw [hp] at this; exact ⟨b.1, this.1⟩
  | err => rw [hp] at this; exact this.elim
  | ub => rw [hp] at this; exact this.elim
  | abort => rw [hp] at this; exact this.elim

theorem run_cons_ok {c : Class} {i : Cmd} {is : List Cmd} {s s' : State} {out : List Seen} (e : State.run c (i :: is) s = .ok (s', out)) :
    ∃ s1 o1 o2, s.step c i = .ok (s1, o1) ∧ State.run c is s1 = .ok (s', o2) := by
  rw [State.run] at e
  cases h1 : s.step c i with
  | ok a =>
    obtain ⟨s1, o1⟩ := a
    simp only [h1, Res.bind_ok] at e
    cases h2 : State.run c is s1 with
    | ok b =>
      obtain ⟨s2, o2⟩ := b
      simp only [h2, Res.bind_ok, Res.ok.injEq, Prod.mk.injEq] at e
      exact ⟨s1, o1, o2, rfl, by rw [h2, e.1]⟩
    | err => simp [h2] at e
    | ub => simp [h2] at e
    | abort => simp [h2] at e
  | err => simp [h1] at e
  | ub => simp [h1] at e
  | abort => simp [h1] at e

theorem run_append_ok {c : Class} {is js : List Cmd} {s s' : State} {out : List Seen} (e : State.run c (is ++ js) s = .ok (s', out)) :
    ∃ s1 o1 o2, State.run c is s = .ok (s1, o1) ∧ State.run c js s1 = .ok (s', o2) := by
  rw [run_append] at e
  cases h1 : State.run c is s with
  | ok a =>
    obtain ⟨s1, o1⟩ := a
    simp only [h1, Res.bind_ok] at e
    cases h2 : State.run c js s1 with
    | ok b =>
      obtain ⟨s2, o2⟩ := b
      simp only [h2, Res.bind_ok, Res.ok.injEq, Prod.mk.injEq] at e
      exact ⟨s1, o1, o2, rfl, by rw [h2, e.1]⟩
    | err => simp [h2] at e
    | ub => simp [h2] at e
    | abort => simp [h2] at e
  | err => simp [h1] at e
  | ub => simp [h1] at e
  | abort => simp [h1] at e

theorem lost_run {c : Class} (is : List Cmd) {s s' : State} {S : Nat → Option Parts} (r : Rel c.fields s S) {p : Nat} {t : Text}
    (l : Lost c s p t) {out : List Seen} (e : State.run c is s = .ok (s', out)) : Lost c s' p t := by
  induction is generalizing s S out with
  | nil =>
    simp only [State.run, Res.ok.injEq, Prod.mk.injEq] at e
    rw [← e.1]
    exact l
  | cons i is ih =>
    obtain ⟨s1, o1, o2, e1, e2⟩ := run_cons_ok e
    obtain ⟨S1, r1⟩ := r.step e1
    exact ih r1 (lost_step r l e1) e2

/-- **C77**, violated. The temperature flag of an `IncludeTransform` is never freed, whatever the program does afterwards. -/
theorem c77_fcttem_leaks (is js : List Cmd) (x : Nat) (num : List Int) (vals : Nat → Option Text) {t : Text} (ht : vals 3 = some t)
    {s : State} {out : List Seen} (h : State.run includeTransform (is ++ .make x num vals :: js) State.init = .ok (s, out)) :
    ∃ p, Lost includeTransform s p t := by
  obtain ⟨s1, o1, o2, e1, e2⟩ := run_append_ok h
  obtain ⟨s2, o3, o4, e3, e4⟩ := run_cons_ok e2
  obtain ⟨S1, r1⟩ := reach _ e1
  obtain ⟨S2, r2⟩ := r1.step e3
  have hobj : s2.obj x = some ⟨num, (makeFields vals 4 s1.heap).2⟩ ∧ s2.heap = (makeFields vals 4 s1.heap).1 := by
    unfold State.step at e3
    dsimp only at e3
    cases hx : s1.obj x with
    | some o => simp [hx] at e3
    | none =>
      simp only [hx, Res.ok.injEq, Prod.mk.injEq] at e3
      rw [← e3.1]
      exact ⟨put_same _ _ _, rfl⟩
  obtain ⟨F, ok⟩ := makeFields_fresh vals 4 s1.heap
  have ok3 := ok 3 (by omega)
  rw [ht] at ok3
  cases hp : (makeFields vals 4 s1.heap).2 3 with
  | null => rw [hp] at ok3; exact ok3.elim
  | junk => rw [hp] at ok3; exact ok3.elim
  | «at» p =>
    rw [hp] at ok3
    refine ⟨p, lost_run js r2 ⟨?_, fun y o k hy hk hf hop => ?_⟩ e4⟩
    · rw [hobj.2]
      exact ok3
    · have hu := r2.uniq y x o _ k 3 p hy hobj.1 hk (by show 3 < 4; omega) hop hp
      rw [hu.2] at hf
      rcases hf with hf | hf
      · exact absurd hf (by decide)
      · exact absurd hf (by decide)

/-- **C77**, violated. Move assignment loses everything that the target held: none of its texts is ever freed. -/
theorem c77_move_assignment_leaks (c : Class) (is js : List Cmd) (x y k p : Nat) {s s' : State} {o : Obj} {out out' : List Seen} {t : Text}
    (h : State.run c is State.init = .ok (s, out)) (hx : s.obj x = some o) (hk : k < c.fields) (hp : o.ptr k = .at p)
    (ht : s.heap[p]? = some ⟨true, t⟩) (hxy : x ≠ y)
    (h' : State.run c (is ++ .moveAssign x y :: js) State.init = .ok (s', out')) : Lost c s' p t := by
  obtain ⟨s1, o1, o2, e1, e2⟩ := run_append_ok h'
  rw [h] at e1
  simp only [Res.ok.injEq, Prod.mk.injEq] at e1
  obtain ⟨rfl, _⟩ := e1
  obtain ⟨s2, o3, o4, e3, e4⟩ := run_cons_ok e2
  obtain ⟨S1, r1⟩ := reach _ h
  obtain ⟨S2, r2⟩ := r1.step e3
  refine lost_run js r2 ?_ e4
  unfold State.step at e3
  dsimp only at e3
  cases hy : s.obj y with
  | none => simp [hx, hy] at e3
  | some o' =>
    simp only [hx, hy, Res.ok.injEq, Prod.mk.injEq] at e3
    rw [← e3.1]
    refine ⟨ht, fun z oz kz hz hkz _ hzp => ?_⟩
    change put (put s.obj x (some o')) y _ z = some oz at hz
    by_cases hzy : z = y
    · subst hzy
      rw [put_same] at hz
      cases hz
      exact (nomatch hzp)
    · rw [put_other _ _ hzy] at hz
      by_cases hzx : z = x
      · subst hzx
        rw [put_same] at hz
        cases hz
        exact hxy (r1.uniq z y o o' k kz p hx hy hk hkz hp hzp).1
      · rw [put_other _ _ hzx] at hz
        exact hzx (r1.uniq z x oz o kz k p hz hx hkz hk hzp hp).1

/-- **C77**, violated. Copy assignment loses every text of the target that it replaces. -/
theorem c77_copy_assignment_leaks (c : Class) (is js : List Cmd) (x y k p q : Nat) {s s' : State} {o o' : Obj} {out out' : List Seen} {t : Text}
    (h : State.run c is State.init = .ok (s, out)) (hx : s.obj x = some o) (hk : k < c.fields) (hp : o.ptr k = .at p)
    (ht : s.heap[p]? = some ⟨true, t⟩) (hy : s.obj y = some o') (hq : o'.ptr k = .at q)
    (h' : State.run c (is ++ .copyAssign x y :: js) State.init = .ok (s', out')) : Lost c s' p t := by
  obtain ⟨s1, o1, o2, e1, e2⟩ := run_append_ok h'
  rw [h] at e1
  simp only [Res.ok.injEq, Prod.mk.injEq] at e1
  obtain ⟨rfl, _⟩ := e1
  obtain ⟨s2, o3, o4, e3, e4⟩ := run_cons_ok e2
  obtain ⟨S1, r1⟩ := reach _ h
  obtain ⟨S2, r2⟩ := r1.step e3
  refine lost_run js r2 ?_ e4
  have hlt : p < s.heap.length := (List.getElem?_eq_some_iff.mp ht).1
  obtain ⟨a, _, ok⟩ := r1.of_some hx
  obtain ⟨a', _, ok'⟩ := r1.of_some hy
  unfold State.step at e3
  simp only [hx, hy] at e3
  rcases copyFields_cases c (x == y) o'.ptr o.ptr c.fields s.heap with ⟨⟨h1, f⟩, ec⟩ | ec
  · have F := copyFields_fresh c (x == y) c.fields ok'.ptr ok.ptr ec
    -- the replaced pointer is new
    have new : ∀ (m : Nat) (h2 : Heap) (g : Nat → Ptr), m ≤ c.fields → copyFields c (x == y) o'.ptr o.ptr m s.heap = .ok (h2, g) → k < m →
        ∃ i, g k = .at i ∧ s.heap.length ≤ i := by
      intro m
      induction m with
      | zero => intro _ _ _ _ hk; omega
      | succ m ih =>
        intro h2 g hm e hkm
        rw [copyFields] at e
        rcases copyFields_cases c (x == y) o'.ptr o.ptr m s.heap with ⟨⟨h3, g3⟩, e3'⟩ | e3'
        · have F3 := copyFields_fresh c (x == y) m (fun k hk => ok'.ptr k (by omega)) (fun k hk => ok.ptr k (by omega)) e3'
          simp only [e3', Res.bind_ok] at e
          by_cases hkm' : k = m
          · subst hkm'
            simp only [hq, copyField] at e
            split at e
            · exact (nomatch e)
            · cases hl : load h3 q with
              | ok w =>
                simp only [hl, Res.bind_ok, Res.ok.injEq, Prod.mk.injEq] at e
                rw [← e.2]
                exact ⟨_, put_same _ _ _, F3.len⟩
              | err => simp [hl] at e
              | ub => simp [hl] at e
              | abort => simp [hl] at e
          · cases hcf : copyField (c.field m) (x == y) h3 (o'.ptr m) (if c.shallow then o'.ptr m else o.ptr m) with
            | ok w =>
              obtain ⟨h4, g4⟩ := w
              simp only [hcf, Res.bind_ok, Res.ok.injEq, Prod.mk.injEq] at e
              rw [← e.2]
              obtain ⟨i, hi, hil⟩ := ih h3 g3 (by omega) e3' (by omega)
              exact ⟨i, by rw [put_other _ _ hkm', hi], hil⟩
            | err => simp [hcf] at e
            | ub => simp [hcf] at e
            | abort => simp [hcf] at e
        · simp [e3'] at e
    simp only [ec, Res.bind_ok, Res.ok.injEq, Prod.mk.injEq] at e3
    rw [← e3.1]
    refine ⟨by show h1[p]? = _; rw [F.same p hlt, ht], fun z oz kz hz hkz _ hzp => ?_⟩
    change put s.obj x _ z = some oz at hz
    by_cases hzx : z = x
    · subst hzx
      rw [put_same] at hz
      cases hz
      rcases F.ptr kz hkz p hzp with h2 | h2
      · omega
      · have hkk := (r1.uniq z z o o kz k p hx hx hkz hk h2 hp).2
        subst hkk
        obtain ⟨i, hi, hil⟩ := new c.fields h1 f (Nat.le_refl _) ec hkz
        change f kz = .at p at hzp
        rw [hi] at hzp
        cases hzp
        omega
    · rw [put_other _ _ hzx] at hz
      exact hzx (r1.uniq z x oz o kz k p hz hx hkz hk hzp hp).1
  · simp [ec] at e3

/-! ## Programs that free everything -/

/-- Specification: a command that forgets no text: texts only in members that are freed, nothing is assigned over. -/
def Clean (c : Class) (v : Nat → Option Value) : Cmd → Prop
  | .make _ _ vals => ∀ k < c.fields, vals k ≠ none → (c.field k).freed = true
  | .copyAssign x _ | .moveAssign x _ => ∀ a, v x = some a → ∀ k < c.fields, a.text k = none
  | .parse x k _ => (c.field k).freed = true ∧ ((c.field k).array = true ∨ ∀ a, v x = some a → a.text k = none)
  | _ => True

/-- Auxiliary of the proofs: every block belongs to an object that frees it. -/
structure Tidy (c : Class) (s : State) : Prop where
  owned : ∀ p t, s.heap[p]? = some ⟨true, t⟩ → ∃ x o k, s.obj x = some o ∧ k < c.fields ∧ o.ptr k = .at p
  freed : ∀ x o k p, s.obj x = some o → k < c.fields → o.ptr k = .at p → (c.field k).freed = true

/-- Auxiliary of the proofs: every new block has a pointer. -/
def Filled (m : Nat) (h h' : Heap) (f : Nat → Ptr) : Prop := ∀ p, h.length ≤ p → p < h'.length → ∃ k < m, f k = .at p

theorem makeFields_filled (vals : Nat → Option Text) (m : Nat) (h : Heap) : Filled m h (makeFields vals m h).1 (makeFields vals m h).2 ∧
    ∀ k < m, ∀ p, (makeFields vals m h).2 k = .at p → vals k ≠ none := by
  induction m with
  | zero =>
    refine ⟨fun p hp hp' => ?_, fun k hk => (by omega)⟩
    simp only [makeFields] at hp'
    omega
  | succ m ih =>
    obtain ⟨ih, ih'⟩ := ih
    rw [makeFields]
    cases hv : vals m with
    | none =>
      dsimp only
      refine ⟨fun p hp hp' => ?_, fun k hk p hp => ?_⟩
      · obtain ⟨k, hk, hkp⟩ := ih p hp hp'
        exact ⟨k, by omega, by rw [put_other _ _ (by omega), hkp]⟩
      · by_cases hkm : k = m
        · subst hkm
          rw [put_same] at hp
          exact (nomatch hp)
        · rw [put_other _ _ hkm] at hp
          exact ih' k (by omega) p hp
    | some t =>
      dsimp only
      refine ⟨fun p hp hp' => ?_, fun k hk p hp => ?_⟩
      · by_cases hlt : p < (makeFields vals m h).1.length
        · obtain ⟨k, hk, hkp⟩ := ih p hp hlt
          exact ⟨k, by omega, by rw [put_other _ _ (by omega), hkp]⟩
        · refine ⟨m, by omega, ?_⟩
          rw [put_same]
          simp only [alloc, List.length_append, List.length_cons, List.length_nil] at hp' ⊢
          congr 1
          omega
      · by_cases hkm : k = m
        · subst hkm
          rw [hv]
          exact fun h => (nomatch h)
        · rw [put_other _ _ hkm] at hp
          exact ih' k (by omega) p hp

theorem copyFields_filled (c : Class) (self : Bool) (src dst : Nat → Ptr) (hd : ∀ k p, dst k ≠ .at p) (m : Nat) (h : Heap) {h' : Heap} {f : Nat → Ptr}
    (e : copyFields c self src dst m h = .ok (h', f)) : h.length ≤ h'.length ∧ Filled m h h' f ∧ ∀ k < m, ∀ p, f k = .at p → ∃ q, src k = .at q := by
  induction m generalizing h' f with
  | zero =>
    simp only [copyFields, Res.ok.injEq, Prod.mk.injEq] at e
    rw [← e.1]
    exact ⟨Nat.le_refl _, fun p hp hp' => (by omega), fun k hk => (by omega)⟩
  | succ m ih =>
    rw [copyFields] at e
    rcases copyFields_cases c self src dst m h with ⟨⟨h3, g3⟩, e3⟩ | e3
    · simp only [e3, Res.bind_ok] at e
      obtain ⟨hl, hF, hsrc⟩ := ih e3
      have keep : ∀ q : Ptr, (∀ p, q ≠ .at p) → h3 = h' → f = put g3 m q →
          h.length ≤ h'.length ∧ Filled (m + 1) h h' f ∧ ∀ k < m + 1, ∀ p, f k = .at p → ∃ q, src k = .at q := by
        intro q hq eh ef
        subst eh ef
        refine ⟨hl, fun p hp hp' => ?_, fun k hk p hp => ?_⟩
        · obtain ⟨k, hk, hkp⟩ := hF p hp hp'
          exact ⟨k, by omega, by rw [put_other _ _ (by omega), hkp]⟩
        · by_cases hkm : k = m
          · subst hkm
            rw [put_same] at hp
            exact absurd hp (hq p)
          · rw [put_other _ _ hkm] at hp
            exact hsrc k (by omega) p hp
      cases hs : src m with
      | null =>
        simp only [hs, copyField] at e
        by_cases ha : (c.field m).always = true
        · simp [ha] at e
        · simp only [ha, Bool.false_eq_true, if_false, Res.bind_ok, Res.ok.injEq, Prod.mk.injEq] at e
          refine keep _ ?_ e.1 e.2.symm
          intro p
          split
          · exact fun h => (nomatch h)
          · exact hd m p
      | junk => simp [hs, copyField] at e
      | «at» q =>
        simp only [hs, copyField] at e
        split at e
        · exact (nomatch e)
        · cases hlo : load h3 q with
          | ok w =>
            simp only [hlo, Res.bind_ok, Res.ok.injEq, Prod.mk.injEq] at e
            rw [← e.1, ← e.2]
            refine ⟨by simp [alloc]; omega, fun p hp hp' => ?_, fun k hk p hp => ?_⟩
            · by_cases hlt : p < h3.length
              · obtain ⟨k, hk, hkp⟩ := hF p hp hlt
                exact ⟨k, by omega, by rw [put_other _ _ (by omega), hkp]⟩
              · refine ⟨m, by omega, ?_⟩
                rw [put_same]
                simp only [alloc, List.length_append, List.length_cons, List.length_nil] at hp' ⊢
                congr 1
                omega
            · by_cases hkm : k = m
              · subst hkm
                exact ⟨q, hs⟩
              · rw [put_other _ _ hkm] at hp
                exact hsrc k (by omega) p hp
          | err => simp [hlo] at e
          | ub => simp [hlo] at e
          | abort => simp [hlo] at e
    · simp [e3] at e

/-- Freeing the members of an object frees their blocks. -/
theorem freeFields_dead (c : Class) (ptr : Nat → Ptr) {k p : Nat} (hk : ptr k = .at p) (hf : (c.field k).freed = true) (m : Nat) (hm : k < m) (h : Heap)
    {h' : Heap} (e : freeFields c ptr m h = .ok h') (t : Text) : h'[p]? ≠ some ⟨true, t⟩ := by
  have dead : ∀ (h1 h2 : Heap) (q : Ptr), free h1 q = .ok h2 → h1[p]? ≠ some ⟨true, t⟩ → h2[p]? ≠ some ⟨true, t⟩ := by
    intro h1 h2 q e1 hne
    cases q with
    | null => simp only [free, Res.ok.injEq] at e1; rw [← e1]; exact hne
    | junk => simp [free] at e1
    | «at» i =>
      unfold free at e1
      dsimp only at e1
      split at e1
      · rename_i u hu
        simp only [Res.ok.injEq] at e1
        rw [← e1]
        by_cases hip : i = p
        · subst hip
          rw [List.getElem?_set_self (List.getElem?_eq_some_iff.mp hu).1]
          simp
        · rw [List.getElem?_set_ne hip]
          exact hne
      · exact (nomatch e1)
  induction m generalizing h' with
  | zero => omega
  | succ m ih =>
    rw [freeFields] at e
    rcases freeFields_cases c ptr m h with ⟨h1, e1⟩ | e1
    · simp only [e1, Res.bind_ok] at e
      by_cases hkm : k = m
      · subst hkm
        rw [if_pos hf, hk] at e
        unfold free at e
        dsimp only at e
        split at e
        · rename_i u hu
          simp only [Res.ok.injEq] at e
          rw [← e, List.getElem?_set_self (List.getElem?_eq_some_iff.mp hu).1]
          simp
        · exact (nomatch e)
      · have h1n := ih (by omega) e1
        split at e
        · exact dead h1 h' _ e h1n
        · simp only [Res.ok.injEq] at e
          rw [← e]
          exact h1n
    · simp [e1] at e

/-- A new object with new blocks is tidy. -/
theorem Tidy.fresh {c : Class} {s : State} (T : Tidy c s) {x : Nat} {h' : Heap} {num : List Int} {f : Nat → Ptr}
    (hempty : ∀ o k p, s.obj x = some o → k < c.fields → o.ptr k ≠ .at p)
    (hsame : ∀ p, p < s.heap.length → h'[p]? = s.heap[p]?) (F : Filled c.fields s.heap h' f)
    (hfreed : ∀ k < c.fields, ∀ p, f k = .at p → (c.field k).freed = true) : Tidy c ⟨h', put s.obj x (some ⟨num, f⟩)⟩ := by
  constructor
  · intro p t hp
    change h'[p]? = _ at hp
    by_cases hlt : p < s.heap.length
    · rw [hsame p hlt] at hp
      obtain ⟨y, o, k, hy, hk, hkp⟩ := T.owned p t hp
      have hyx : y ≠ x := by
        intro e
        subst e
        exact hempty o k p hy hk hkp
      exact ⟨y, o, k, by show put s.obj x _ y = _; rw [put_other _ _ hyx, hy], hk, hkp⟩
    · obtain ⟨k, hk, hkp⟩ := F p (by omega) (List.getElem?_eq_some_iff.mp hp).1
      exact ⟨x, _, k, put_same _ _ _, hk, hkp⟩
  · intro y o k p hy hk hkp
    change put s.obj x _ y = _ at hy
    by_cases hyx : y = x
    · subst hyx
      rw [put_same] at hy
      cases hy
      exact hfreed k hk p hkp
    · rw [put_other _ _ hyx] at hy
      exact T.freed y o k p hy hk hkp

theorem Tidy.move {c : Class} {s : State} (T : Tidy c s) {x y : Nat} {o : Obj} (hy : s.obj y = some o) (num : List Int)
    (hempty : ∀ o k p, s.obj x = some o → k < c.fields → o.ptr k ≠ .at p) :
    Tidy c ⟨s.heap, put (put s.obj x (some o)) y (some ⟨num, fun _ => .null⟩)⟩ := by
  constructor
  · intro p t hp
    obtain ⟨z, oz, k, hz, hk, hkp⟩ := T.owned p t hp
    by_cases hxy : x = y
    · subst hxy
      have hzx : z ≠ x := by
        intro e
        subst e
        exact hempty oz k p hz hk hkp
      exact ⟨z, oz, k, by show put (put s.obj x _) x _ z = _; rw [put_other _ _ hzx, put_other _ _ hzx, hz], hk, hkp⟩
    · by_cases hzy : z = y
      · subst hzy
        rw [hy] at hz
        cases hz
        exact ⟨x, o, k, by show put (put s.obj x _) z _ x = _; rw [put_other _ _ hxy, put_same], hk, hkp⟩
      · have hzx : z ≠ x := by
          intro e
          subst e
          exact hempty oz k p hz hk hkp
        exact ⟨z, oz, k, by show put (put s.obj x _) y _ z = _; rw [put_other _ _ hzy, put_other _ _ hzx, hz], hk, hkp⟩
  · intro z oz k p hz hk hkp
    change put (put s.obj x _) y _ z = _ at hz
    by_cases hzy : z = y
    · subst hzy
      rw [put_same] at hz
      cases hz
      exact (nomatch hkp)
    · rw [put_other _ _ hzy] at hz
      by_cases hzx : z = x
      · subst hzx
        rw [put_same] at hz
        cases hz
        exact T.freed y o k p hy hk hkp
      · rw [put_other _ _ hzx] at hz
        exact T.freed z oz k p hz hk hkp

/-- Auxiliary of the proofs: memory, values with garbage and values belong together. -/
def Tri (c : Class) (s : State) (v : Nat → Option Value) : Prop :=
  ∃ S : Nat → Option Parts, Rel c.fields s S ∧ ∀ x, OptRel (ValOk c.fields) (S x) (v x)

theorem Tri.none_ptr {c : Class} {s : State} {v : Nat → Option Value} (h : Tri c s v) {x k : Nat} (hk : k < c.fields)
    (hv : ∀ a, v x = some a → a.text k = none) (o : Obj) (p : Nat) (ho : s.obj x = some o) : o.ptr k ≠ .at p := by
  obtain ⟨S, r, rv⟩ := h
  obtain ⟨a, ha, ok⟩ := r.of_some ho
  have h1 := rv x
  rw [ha] at h1
  obtain ⟨b, hb, okb⟩ := h1.of_some
  have h2 := ok.ptr k hk
  rw [okb.2 k hk, hv b hb] at h2
  intro e
  rw [e] at h2
  exact h2

theorem copyFields_range {c : Class} {S : Nat → Option Parts} {s : State} (r : Rel c.fields s S) {y : Nat} {o : Obj} (hy : s.obj y = some o)
    {self : Bool} {dst : Nat → Ptr} {dstP : Nat → Part} (ok' : ∀ k < c.fields, PtrOk s.heap (dst k) (dstP k)) {h' : Heap} {f : Nat → Ptr}
    (e : copyFields c self o.ptr dst c.fields s.heap = .ok (h', f)) : ∀ p, p < s.heap.length → h'[p]? = s.heap[p]? := by
  obtain ⟨a, _, ok⟩ := r.of_some hy
  exact (copyFields_fresh c self c.fields ok.ptr ok' e).same

/-- Only the members that exist matter. -/
theorem copyFields_congr (c : Class) (self : Bool) (src dst dst' : Nat → Ptr) (m : Nat) (hd : ∀ k < m, dst k = dst' k) (h : Heap) {h' : Heap}
    {f : Nat → Ptr} (e : copyFields c self src dst m h = .ok (h', f)) :
    ∃ f', copyFields c self src dst' m h = .ok (h', f') ∧ ∀ k < m, f k = f' k := by
  induction m generalizing h' f with
  | zero =>
    simp only [copyFields, Res.ok.injEq, Prod.mk.injEq] at e ⊢
    exact ⟨_, ⟨e.1, rfl⟩, fun k hk => (by omega)⟩
  | succ m ih =>
    rw [copyFields] at e ⊢
    rcases copyFields_cases c self src dst m h with ⟨⟨h3, g3⟩, e3⟩ | e3
    · obtain ⟨f', ef, hf⟩ := ih (fun k hk => hd k (by omega)) e3
      simp only [e3, ef, Res.bind_ok, hd m (by omega)] at e ⊢
      cases hcf : copyField (c.field m) self h3 (src m) (if c.shallow then src m else dst' m) with
      | ok w =>
        obtain ⟨h4, g4⟩ := w
        simp only [hcf, Res.bind_ok, Res.ok.injEq, Prod.mk.injEq] at e ⊢
        refine ⟨_, ⟨e.1, rfl⟩, fun k hk => ?_⟩
        rw [← e.2]
        by_cases hkm : k = m
        · subst hkm
          rw [put_same, put_same]
        · rw [put_other _ _ hkm, put_other _ _ hkm]
          exact hf k (by omega)
      | err => simp [hcf] at e
      | ub => simp [hcf] at e
      | abort => simp [hcf] at e
    · simp [e3] at e

theorem tidy_step {c : Class} {s s' : State} {v : Nat → Option Value} (T : Tidy c s) (h : Tri c s v) {i : Cmd} (cl : Clean c v i)
    {out : List Seen} (e : s.step c i = .ok (s', out)) : Tidy c s' := by
  obtain ⟨S, r, _⟩ := id h
  have noObj : ∀ {x : Nat}, s.obj x = none → ∀ o k p, s.obj x = some o → k < c.fields → o.ptr k ≠ .at p := by
    intro x hx o k p ho
    rw [hx] at ho
    exact (nomatch ho)
  cases i with
  | make x num vals =>
    unfold State.step at e
    dsimp only at e
    cases hx : s.obj x with
    | some o => simp [hx] at e
    | none =>
      simp only [hx, Res.ok.injEq, Prod.mk.injEq] at e
      rw [← e.1]
      obtain ⟨F, _⟩ := makeFields_fresh vals c.fields s.heap
      obtain ⟨G, G'⟩ := makeFields_filled vals c.fields s.heap
      exact T.fresh (noObj hx) F.same G fun k hk p hp => cl k hk (G' k hk p hp)
  | copyCtor x y =>
    unfold State.step at e
    dsimp only at e
    cases hx : s.obj x with
    | some o => simp [hx] at e
    | none =>
      cases hy : s.obj y with
      | none => simp [hx, hy] at e
      | some o =>
        simp only [hx, hy] at e
        rcases copyFields_cases c false o.ptr (fun _ => .junk) c.fields s.heap with ⟨⟨h1, f⟩, ec⟩ | ec
        · obtain ⟨_, G, G'⟩ := copyFields_filled c false o.ptr (fun _ => .junk) (fun _ _ hh => (nomatch hh)) c.fields s.heap ec
          simp only [ec, Res.bind_ok, Res.ok.injEq, Prod.mk.injEq] at e
          rw [← e.1]
          refine T.fresh (noObj hx) (copyFields_range r hy (dst := fun _ => .junk) (dstP := fun _ => .junk) (fun _ _ => trivial) ec) G fun k hk p hp => ?_
          obtain ⟨q, hq⟩ := G' k hk p hp
          exact T.freed y o k q hy hk hq
        · simp [ec] at e
  | moveCtor x y =>
    unfold State.step at e
    dsimp only at e
    cases hx : s.obj x with
    | some o => simp [hx] at e
    | none =>
      cases hy : s.obj y with
      | none => simp [hx, hy] at e
      | some o =>
        simp only [hx, hy, Res.ok.injEq, Prod.mk.injEq] at e
        rw [← e.1]
        exact T.move hy _ (noObj hx)
  | copyAssign x y =>
    unfold State.step at e
    dsimp only at e
    cases hx : s.obj x with
    | none => simp [hx] at e
    | some o1 =>
      cases hy : s.obj y with
      | none => simp [hx, hy] at e
      | some o =>
        simp only [hx, hy] at e
        have hempty : ∀ o k p, s.obj x = some o → k < c.fields → o.ptr k ≠ .at p :=
          fun o k p ho hk => h.none_ptr hk (fun a ha => cl a ha k hk) o p ho
        obtain ⟨a1, _, ok1⟩ := r.of_some hx
        rcases copyFields_cases c (x == y) o.ptr o1.ptr c.fields s.heap with ⟨⟨h1, f⟩, ec⟩ | ec
        · obtain ⟨f', ec', hff⟩ := copyFields_congr c (x == y) o.ptr o1.ptr (fun k => if k < c.fields then o1.ptr k else .null) c.fields
            (fun k hk => by simp [hk]) s.heap ec
          obtain ⟨_, G, G'⟩ := copyFields_filled c (x == y) o.ptr _ (fun k p => by
            by_cases hk : k < c.fields
            · rw [if_pos hk]; exact hempty o1 k p hx hk
            · rw [if_neg hk]; exact fun hh => (nomatch hh)) c.fields s.heap ec'
          simp only [ec, Res.bind_ok, Res.ok.injEq, Prod.mk.injEq] at e
          rw [← e.1]
          refine T.fresh hempty (copyFields_range r hy ok1.ptr ec) (fun p hp hp' => ?_) fun k hk p hp => ?_
          · obtain ⟨k, hk, hkp⟩ := G p hp hp'
            exact ⟨k, hk, by rw [hff k hk, hkp]⟩
          · rw [hff k hk] at hp
            obtain ⟨q, hq⟩ := G' k hk p hp
            exact T.freed y o k q hy hk hq
        · simp [ec] at e
  | moveAssign x y =>
    unfold State.step at e
    dsimp only at e
    cases hx : s.obj x with
    | none => simp [hx] at e
    | some o1 =>
      cases hy : s.obj y with
      | none => simp [hx, hy] at e
      | some o =>
        simp only [hx, hy, Res.ok.injEq, Prod.mk.injEq] at e
        rw [← e.1]
        exact T.move hy _ fun o k p ho hk => h.none_ptr hk (fun a ha => cl a ha k hk) o p ho
  | destroy x =>
    unfold State.step at e
    dsimp only at e
    cases hx : s.obj x with
    | none => simp [hx] at e
    | some o =>
      simp only [hx] at e
      obtain ⟨a, _, ok⟩ := r.of_some hx
      rcases freeFields_cases c o.ptr c.fields s.heap with ⟨h1, ec⟩ | ec
      · simp only [ec, Res.bind_ok, Res.ok.injEq, Prod.mk.injEq] at e
        rw [← e.1]
        constructor
        · intro p t hp
          change h1[p]? = _ at hp
          have hno : ∀ k < c.fields, (c.field k).freed = true → o.ptr k ≠ .at p := by
            intro k hk hf hkp
            exact freeFields_dead c o.ptr hkp hf c.fields hk s.heap ec t hp
          have K := freeFields_keeps c c.fields ok.ptr (fun k k' p hk hk' hp hp' => (r.uniq x x o o k k' p hx hx hk hk' hp hp').2) ec hno
          rw [K] at hp
          obtain ⟨y, oy, k, hy, hk, hkp⟩ := T.owned p t hp
          have hyx : y ≠ x := by
            intro e
            subst e
            rw [hx] at hy
            cases hy
            exact hno k hk (T.freed y o k p hx hk hkp) hkp
          exact ⟨y, oy, k, by show put s.obj x none y = _; rw [put_other _ _ hyx, hy], hk, hkp⟩
        · intro y oy k p hy hk hkp
          change put s.obj x none y = _ at hy
          by_cases hyx : y = x
          · subst hyx
            rw [put_same] at hy
            exact (nomatch hy)
          · rw [put_other _ _ hyx] at hy
            exact T.freed y oy k p hy hk hkp
      · simp [ec] at e
  | parse x k u =>
    unfold State.step at e
    dsimp only at e
    cases hx : s.obj x with
    | none => simp [hx] at e
    | some o =>
      simp only [hx] at e
      by_cases hk : k < c.fields
      · rw [if_pos hk] at e
        have key : ∀ (h1 : Heap) (w : Text), h1.length = s.heap.length → (∀ p, o.ptr k ≠ .at p → h1[p]? = s.heap[p]?) →
            (∀ p, o.ptr k = .at p → ∀ t, h1[p]? ≠ some ⟨true, t⟩) →
            Tidy c ⟨(alloc h1 w).1, put s.obj x (some ⟨o.num, put o.ptr k (.at (alloc h1 w).2)⟩)⟩ := by
          intro h1 w hl hs hd
          constructor
          · intro p t hp
            change (alloc h1 w).1[p]? = _ at hp
            by_cases hlt : p < h1.length
            · rw [alloc_old _ _ hlt] at hp
              have hkp : o.ptr k ≠ .at p := fun hkp => hd p hkp t hp
              rw [hs p hkp] at hp
              obtain ⟨y, oy, k', hy, hk', hkp'⟩ := T.owned p t hp
              by_cases hyx : y = x
              · subst hyx
                rw [hx] at hy
                cases hy
                refine ⟨y, _, k', put_same _ _ _, hk', ?_⟩
                show put o.ptr k _ k' = _
                rw [put_other _ _ (fun e : k' = k => hkp (by rw [← e, hkp'])), hkp']
              · exact ⟨y, oy, k', by show put s.obj x _ y = _; rw [put_other _ _ hyx, hy], hk', hkp'⟩
            · refine ⟨x, _, k, put_same _ _ _, hk, ?_⟩
              show put o.ptr k _ k = _
              rw [put_same]
              have := (List.getElem?_eq_some_iff.mp hp).1
              simp only [alloc, List.length_append, List.length_cons, List.length_nil] at this ⊢
              congr 1
              omega
          · intro y oy k' p hy hk' hkp'
            change put s.obj x _ y = _ at hy
            by_cases hyx : y = x
            · subst hyx
              rw [put_same] at hy
              cases hy
              by_cases hkk : k' = k
              · subst hkk
                exact cl.1
              · change put o.ptr k _ k' = _ at hkp'
                rw [put_other _ _ hkk] at hkp'
                exact T.freed y o k' p hx hk' hkp'
            · rw [put_other _ _ hyx] at hy
              exact T.freed y oy k' p hy hk' hkp'
        unfold parseField at e
        by_cases harr : (c.field k).array = true
        · simp only [harr, if_true] at e
          cases hs : o.ptr k with
          | null =>
            simp only [hs, Res.bind_ok, Res.ok.injEq, Prod.mk.injEq] at e
            rw [← e.1]
            exact key _ _ rfl (fun _ _ => rfl) (fun p hp => by rw [hs] at hp; exact (nomatch hp))
          | junk => simp [hs] at e
          | «at» q =>
            obtain ⟨a, _, ok⟩ := r.of_some hx
            have okk := ok.ptr k hk
            rw [hs] at okk
            obtain ⟨w, _, hw⟩ := okk.live
            have hfree : free s.heap (.at q) = .ok (s.heap.set q ⟨false, w⟩) := by simp [free, hw]
            simp only [hs, load_live hw, hfree, Res.bind_ok, Res.ok.injEq, Prod.mk.injEq] at e
            rw [← e.1]
            refine key _ _ (by simp) (fun p hp => List.getElem?_set_ne fun hqp : q = p => hp (by rw [hs, hqp])) fun p hp t => ?_
            rw [hs] at hp
            cases hp
            rw [List.getElem?_set_self (List.getElem?_eq_some_iff.mp hw).1]
            simp
        · simp only [harr, Bool.false_eq_true, if_false, Res.bind_ok, Res.ok.injEq, Prod.mk.injEq] at e
          rw [← e.1]
          refine key _ _ rfl (fun _ _ => rfl) fun p hp => ?_
          rcases cl.2 with h1 | h1
          · exact absurd h1 harr
          · exact absurd hp (h.none_ptr hk h1 o p hx)
      · rw [if_neg hk] at e
        exact (nomatch e)
  | parseNum x num =>
    unfold State.step at e
    dsimp only at e
    cases hx : s.obj x with
    | none => simp [hx] at e
    | some o =>
      simp only [hx, Res.ok.injEq, Prod.mk.injEq] at e
      rw [← e.1]
      constructor
      · intro p t hp
        obtain ⟨y, oy, k, hy, hk, hkp⟩ := T.owned p t hp
        by_cases hyx : y = x
        · subst hyx
          rw [hx] at hy
          cases hy
          exact ⟨y, _, k, put_same _ _ _, hk, hkp⟩
        · exact ⟨y, oy, k, by show put s.obj x _ y = _; rw [put_other _ _ hyx, hy], hk, hkp⟩
      · intro y oy k p hy hk hkp
        change put s.obj x _ y = _ at hy
        by_cases hyx : y = x
        · subst hyx
          rw [put_same] at hy
          cases hy
          exact T.freed y o k p hx hk hkp
        · rw [put_other _ _ hyx] at hy
          exact T.freed y oy k p hy hk hkp
  | look x k =>
    unfold State.step at e
    dsimp only at e
    cases hx : s.obj x with
    | none => simp [hx] at e
    | some o =>
      simp only [hx] at e
      by_cases hk : k < c.fields
      · rw [if_pos hk] at e
        cases hs : o.ptr k with
        | null =>
          simp only [hs, Res.ok.injEq, Prod.mk.injEq] at e
          rw [← e.1]
          exact T
        | junk => simp [hs] at e
        | «at» q =>
          obtain ⟨a, _, ok⟩ := r.of_some hx
          have okk := ok.ptr k hk
          rw [hs] at okk
          obtain ⟨w, _, hw⟩ := okk.live
          simp only [hs, load_live hw, Res.bind_ok, Res.ok.injEq, Prod.mk.injEq] at e
          rw [← e.1]
          exact T
      · rw [if_neg hk] at e
        exact (nomatch e)
  | lookNum x =>
    unfold State.step at e
    dsimp only at e
    cases hx : s.obj x with
    | none => simp [hx] at e
    | some o =>
      simp only [hx, Res.ok.injEq, Prod.mk.injEq] at e
      rw [← e.1]
      exact T

theorem tri_step {c : Class} {s : State} {v : Nat → Option Value} (h : Tri c s v) {i : Cmd} (fine : Fine c v i) :
    Same (fun (a : State × List Seen) (b : (Nat → Option Value) × List Seen) => Tri c a.1 b.1 ∧ a.2 = b.2) (s.step c i) (Value.step c v i) := by
  obtain ⟨S, r, rv⟩ := h
  have h1 := step_same c r i
  have h2 := vstep_same c rv i fine
  cases hs : s.step c i with
  | ok a => cases hp : Parts.step c S i with
    | ok b => cases hv : Value.step c v i with
      | ok d =>
        rw [hs, hp] at h1
        rw [hp, hv] at h2
        exact ⟨⟨b.1, h1.1, h2.1⟩, h1.2.trans h2.2⟩
      | err => rw [hp, hv] at h2; exact h2.elim
      | ub => rw [hp, hv] at h2; exact h2.elim
      | abort => rw [hp, hv] at h2; exact h2.elim
    | err => rw [hs, hp] at h1; exact h1.elim
    | ub => rw [hs, hp] at h1; exact h1.elim
    | abort => rw [hs, hp] at h1; exact h1.elim
  | err => cases hp : Parts.step c S i with
    | err => cases hv : Value.step c v i with
      | err => trivial
      | ok d => rw [hp, hv] at h2; exact h2.elim
      | ub => rw [hp, hv] at h2; exact h2.elim
      | abort => rw [hp, hv] at h2; exact h2.elim
    | ok b => rw [hs, hp] at h1; exact h1.elim
    | ub => rw [hs, hp] at h1; exact h1.elim
    | abort => rw [hs, hp] at h1; exact h1.elim
  | ub => cases hp : Parts.step c S i with
    | ub => cases hv : Value.step c v i with
      | ub => trivial
      | ok d => rw [hp, hv] at h2; exact h2.elim
      | err => rw [hp, hv] at h2; exact h2.elim
      | abort => rw [hp, hv] at h2; exact h2.elim
    | ok b => rw [hs, hp] at h1; exact h1.elim
    | err => rw [hs, hp] at h1; exact h1.elim
    | abort => rw [hs, hp] at h1; exact h1.elim
  | abort => cases hp : Parts.step c S i with
    | abort => cases hv : Value.step c v i with
      | abort => trivial
      | ok d => rw [hp, hv] at h2; exact h2.elim
      | err => rw [hp, hv] at h2; exact h2.elim
      | ub => rw [hp, hv] at h2; exact h2.elim
    | ok b => rw [hs, hp] at h1; exact h1.elim
    | err => rw [hs, hp] at h1; exact h1.elim
    | ub => rw [hs, hp] at h1; exact h1.elim

theorem tidy_run {c : Class} (is : List Cmd) {s s' : State} {v : Nat → Option Value} (T : Tidy c s) (h : Tri c s v)
    (fine : Along (fun v i => Fine c v i ∧ Clean c v i) c is v) {out : List Seen} (e : State.run c is s = .ok (s', out)) : Tidy c s' := by
  induction is generalizing s v out with
  | nil =>
    simp only [State.run, Res.ok.injEq, Prod.mk.injEq] at e
    rw [← e.1]
    exact T
  | cons i is ih =>
    obtain ⟨s1, o1, o2, e1, e2⟩ := run_cons_ok e
    have h1 := tri_step h fine.1.1
    rw [e1] at h1
    cases hv : Value.step c v i with
    | ok b =>
      rw [hv] at h1
      exact ih (tidy_step T h fine.1.2 e1) h1.1 (fine.2 b.1 b.2 hv) e2
    | err => rw [hv] at h1; exact h1.elim
    | ub => rw [hv] at h1; exact h1.elim
    | abort => rw [hv] at h1; exact h1.elim

/-- **C77** (partial: copies as above, and no object is assigned over or parsed into twice, no temperature flag). When all objects are
destroyed, all memory was freed. -/
theorem c77_no_leak_partial (c : Class) (is : List Cmd) (h : Along (fun v i => Fine c v i ∧ Clean c v i) c is fun _ => none)
    {s : State} {out : List Seen} (e : State.run c is State.init = .ok (s, out)) (gone : ∀ x, s.obj x = none) :
    ∀ b ∈ s.heap, b.live = false := by
  have T := tidy_run is (s := State.init) ⟨fun p t hp => (by simp [State.init] at hp), fun x o k p hx => (nomatch hx)⟩
    (v := fun _ => none) ⟨fun _ => none, Rel.init c.fields, fun _ => trivial⟩ h e
  intro b hb
  obtain ⟨p, hp, rfl⟩ := List.getElem_of_mem hb
  cases hl : s.heap[p].live with
  | false => rfl
  | true =>
    have : s.heap[p]? = some ⟨true, s.heap[p].text⟩ := by
      rw [List.getElem?_eq_getElem hp, ← hl]
    obtain ⟨x, o, k, hx, _⟩ := T.owned p _ this
    rw [gone x] at hx
    exact (nomatch hx)

/-! ## Examples -/

/-- Auxiliary of the examples: title and two options, one text per number. -/
def sampleVals (l : List (Option Text)) : Nat → Option Text := fun k => (l[k]?).getD none

/-- A program with copies of two titled transformations. -/
def sample : List Cmd :=
  [.make 0 [7] (sampleVals [some [[65]], some [[66], [67]]]), .make 1 [8] (sampleVals [none, none]), .copyAssign 1 0, .parse 0 1 [[68]],
    .copyCtor 2 0, .destroy 0, .look 1 1, .look 2 1, .moveCtor 3 2, .look 2 0, .look 3 0, .lookNum 3, .destroy 1, .destroy 2, .destroy 3]

/-- Auxiliary of the examples. -/
theorem along_cons {P : (Nat → Option Value) → Cmd → Prop} {c : Class} {i : Cmd} {is : List Cmd} {v v' : Nat → Option Value} {o : List Seen}
    (h : P v i) (e : Value.step c v i = .ok (v', o)) (a : Along P c is v') : Along P c (i :: is) v := by
  refine ⟨h, fun v1 o1 e1 => ?_⟩
  rw [e] at e1
  simp only [Res.ok.injEq, Prod.mk.injEq] at e1
  rw [← e1.1]
  exact a

example : Along Complete defineTransformation sample fun _ => none := by
  refine along_cons trivial rfl (along_cons trivial rfl (along_cons ⟨by decide, fun a ha => ?_⟩ rfl (along_cons trivial rfl
    (along_cons (fun a ha => ?_) rfl ?_))))
  · cases ha
    exact ⟨by decide, by decide⟩
  · cases ha
    exact ⟨by decide, by decide⟩
  · exact along_cons trivial rfl (along_cons trivial rfl (along_cons trivial rfl (along_cons trivial rfl (along_cons trivial rfl
      (along_cons trivial rfl (along_cons trivial rfl (along_cons trivial rfl (along_cons trivial rfl (along_cons trivial rfl trivial)))))))))

/-- The same program forgets no text. -/
example : Along (fun v i => Fine defineTransformation v i ∧ Clean defineTransformation v i) defineTransformation sample fun _ => none := by
  refine along_cons ⟨trivial, fun _ _ _ => rfl⟩ rfl (along_cons ⟨trivial, fun _ _ _ => rfl⟩ rfl (along_cons ⟨fun a' a ha' ha => ?_, fun a ha k hk => ?_⟩ rfl
    (along_cons ⟨trivial, rfl, .inl rfl⟩ rfl (along_cons ⟨fun a ha k hk hn => ?_, trivial⟩ rfl ?_))))
  · cases ha
    refine ⟨fun k hk hn => ?_, fun e => (nomatch e)⟩
    have : k = 0 ∨ k = 1 := by have : k < 2 := hk; omega
    rcases this with rfl | rfl
    · exact (nomatch hn)
    · exact (nomatch hn)
  · cases ha
    have : k = 0 ∨ k = 1 := by have : k < 2 := hk; omega
    rcases this with rfl | rfl <;> rfl
  · cases ha
    have : k = 0 ∨ k = 1 := by have : k < 2 := hk; omega
    rcases this with rfl | rfl
    · exact (nomatch hn)
    · exact (nomatch hn)
  · have tt : True ∧ True := ⟨trivial, trivial⟩
    exact along_cons tt rfl (along_cons tt rfl (along_cons tt rfl (along_cons tt rfl (along_cons tt rfl
      (along_cons tt rfl (along_cons tt rfl (along_cons tt rfl (along_cons tt rfl (along_cons tt rfl trivial)))))))))

example : seen (State.run defineTransformation sample State.init) =
    .ok [.text (some [[66], [67]]), .text (some [[66], [67], [68]]), .text none, .text (some [[65]]), .numbers [7]] := by decide +kernel

/-- An untitled transformation with one option, copied and destroyed: the copying itself works. -/
theorem c77_sample_untitled :
    seen (State.run defineTransformation [.make 0 [7] (sampleVals [none, some [[66]]]), .copyCtor 1 0, .look 1 1] State.init) =
      .ok [.text (some [[66]])] ∧
    seen (State.run defineTransformation [.make 0 [7] (sampleVals [none, some [[66]]]), .copyCtor 1 0, .destroy 1] State.init) = .ub := by
  decide +kernel

/-- The title of the target survives the assignment of an untitled transformation. -/
theorem c77_sample_stale : seen (State.run defineTransformation [.make 0 [7] (sampleVals [none, some [[66]]]), .make 1 [8] (sampleVals [some [[65]], none]),
    .copyAssign 1 0, .look 1 0, .look 1 1] State.init) = .ok [.text (some [[65]]), .text (some [[66]])] := by
  decide +kernel

/-- Copying an include without file name. -/
example : seen (State.run includeTransform [.make 0 [] (sampleVals []), .copyCtor 1 0] State.init) = .ub := by decide +kernel

/-- Two includes with texts. -/
example : seen (State.run includeTransform [.make 0 [1, 2] (sampleVals [some [[65]], none, some [[66]]]), .copyCtor 1 0, .destroy 0, .look 1 0,
    .look 1 1, .look 1 2, .lookNum 1, .destroy 1] State.init) = .ok [.text (some [[65]]), .text none, .text (some [[66]]), .numbers [1, 2]] := by
  decide +kernel

/-- A transformation assigned to itself. -/
example : seen (State.run defineTransformation [.make 0 [7] (sampleVals [none, some [[66]]]), .copyAssign 0 0] State.init) = .ub := by
  decide +kernel

end Dyna.TransformObj
