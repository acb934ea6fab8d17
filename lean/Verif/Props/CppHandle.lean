import Verif.CppHandle
/-!
# Messages of exceptions and names of children (C76)
-/

namespace Dyna.Handle

/-! ## Specification: files, messages and how long they last -/

/-- Specification: a text that a program holds: from which file it is borrowed (`none`: the program's own) and whether it is
still there. -/
structure Note where
  text : List Bytes
  src : Option Nat
  valid : Bool

/-- Specification: every opened file has a number; which file an object refers to; the names in a file; exceptions and lists. -/
structure Spec where
  next : Nat
  file : Nat → Option Nat
  names : Nat → List Bytes
  exc : Nat → Option Note
  list : Nat → Option Note

/-- Specification: the texts that are borrowed from a file are gone. -/
def expire (f : Nat) (notes : Nat → Option Note) : Nat → Option Note := fun e =>
  (notes e).map fun n => if n.src = some f then { n with valid := false } else n

/-- Specification: look at a text. -/
def Note.look (n : Note) : Res (List Bytes) := if n.valid then .ok n.text else .ub

/-- Specification: a new file with these names, referred to by `x`. -/
def Spec.newFile (S : Spec) (x : Nat) (names : List Bytes) : Spec :=
  { S with next := S.next + 1, file := put S.file x (some S.next), names := fun f => if f = S.next then names else S.names f }

/-- Specification of the commands. The message of a failed call is borrowed from the file and lasts until the next call on the
file or until it is closed; names last until the file is closed; messages of the constructor, of other functions and of copies
of exceptions are the exception's own. -/
def Spec.step (S : Spec) : Cmd → Res (Spec × List (List Bytes))
  | .openFile x names => match S.file x with
    | some _ => .err
    | none => .ok (S.newFile x names, [])
  | .openFails e msg => match S.exc e with
    | some _ => .err
    | none => .ok ({ S with exc := put S.exc e (some ⟨[msg], none, true⟩) }, [])
  | .fails x e msg => match S.file x, S.exc e with
    | some f, none => .ok ({ S with exc := put (expire f S.exc) e (some ⟨[msg], some f, true⟩) }, [])
    | _, _ => .err
  | .succeeds x => match S.file x with
    | some f => .ok ({ S with exc := expire f S.exc }, [])
    | none => .err
  | .failsOwn x e msg => match S.file x, S.exc e with
    | some _, none => .ok ({ S with exc := put S.exc e (some ⟨[msg], none, true⟩) }, [])
    | _, _ => .err
  | .children x c => match S.file x, S.list c with
    | some f, none =>
      .ok ({ S with list := put S.list c (some ⟨S.names f, if S.names f = [] then none else some f, true⟩) }, [])
    | _, _ => .err
  | .what e => match S.exc e with
    | some n => do
      let t ← n.look
      .ok (S, [t])
    | none => .err
  | .names c => match S.list c with
    | some n => do
      let t ← n.look
      .ok (S, [t])
    | none => .err
  | .copyExc e e' => match S.exc e, S.exc e' with
    | none, some n => do
      let t ← n.look
      .ok ({ S with exc := put S.exc e (some ⟨t, none, true⟩) }, [])
    | _, _ => .err
  | .moveCtor x y => match S.file x, S.file y with
    | none, some f => .ok (({ S with file := put S.file x (some f) } : Spec).newFile y [], [])
    | _, _ => .err
  | .moveAssign x y => match S.file x, S.file y with
    | some _, some f => .ok (({ S with file := put S.file x (some f) } : Spec).newFile y [], [])
    | _, _ => .err
  | .destroy x => match S.file x with
    | some f => .ok ({ S with file := put S.file x none, exc := expire f S.exc, list := expire f S.list }, [])
    | none => .err
  | .destroyExc e => match S.exc e with
    | some _ => .ok ({ S with exc := put S.exc e none }, [])
    | none => .err
  | .destroyList c => match S.list c with
    | some _ => .ok ({ S with list := put S.list c none }, [])
    | none => .err

/-- Specification: execute a program, everything it sees in order. -/
def Spec.run : List Cmd → Spec → Res (Spec × List (List Bytes))
  | [], S => .ok (S, [])
  | c :: cs, S => do
    let (S, out) ← S.step c
    let (S, out') ← Spec.run cs S
    .ok (S, out ++ out')

/-- Specification: the start of a program. -/
def Spec.init : Spec := ⟨0, fun _ => none, fun _ => [], fun _ => none, fun _ => none⟩

/-! ## The invariant -/

/-- Auxiliary: what a block was allocated for. -/
inductive Owner where
  | err (f : Nat)
  | dir (f : Nat)
  | own

/-- Auxiliary: related optional values. -/
def OptRel {α β : Type} (R : α → β → Prop) : Option α → Option β → Prop
  | none, none => True
  | some a, some b => R a b
  | _, _ => False

/-- Auxiliary: an object and its file. -/
structure ObjOk (h : Heap) (O : Nat → Owner) (S : Spec) (o : Obj) (f : Nat) : Prop where
  lt : f < S.next
  err : ∀ p, o.err = some p → O p = .err f ∧ ∃ t, h[p]? = some ⟨true, t⟩
  dir : ∀ p, o.dir = some p → O p = .dir f ∧ h[p]? = some ⟨true, S.names f⟩ ∧ S.names f ≠ []
  nodir : o.dir = none → S.names f = []

/-- Auxiliary: a borrowed text. -/
def Borrowed (h : Heap) (O : Nat → Owner) (S : Spec) (s : State) (kind : Nat → Owner) (field : Obj → Option Nat) (p : Nat)
    (n : Note) : Prop :=
  ∃ f, n.src = some f ∧ f < S.next ∧ O p = kind f ∧
    ((n.valid = true ∧ h[p]? = some ⟨true, n.text⟩ ∧ ∀ x o, S.file x = some f → s.obj x = some o → field o = some p) ∨
     (n.valid = false ∧ ∃ t, h[p]? = some ⟨false, t⟩))

/-- Auxiliary: an exception and what it means. -/
def ExcOk (h : Heap) (O : Nat → Owner) (S : Spec) (s : State) (E : Exc) (n : Note) : Prop :=
  (E.owned = true ∧ n.src = none ∧ n.valid = true ∧ O E.ptr = .own ∧ h[E.ptr]? = some ⟨true, n.text⟩) ∨
  (E.owned = false ∧ Borrowed h O S s .err (·.err) E.ptr n)

/-- Auxiliary: a list of names and what it means. -/
def ListOk (h : Heap) (O : Nat → Owner) (S : Spec) (s : State) (l : Option Nat) (n : Note) : Prop :=
  match l with
  | none => n.src = none ∧ n.valid = true ∧ n.text = []
  | some p => Borrowed h O S s .dir (·.dir) p n

/-- Auxiliary: the memory represents the files, exceptions and lists. -/
structure Rel (O : Nat → Owner) (s : State) (S : Spec) : Prop where
  obj : ∀ x, OptRel (ObjOk s.heap O S) (s.obj x) (S.file x)
  inj : ∀ x y f, S.file x = some f → S.file y = some f → x = y
  exc : ∀ e, OptRel (ExcOk s.heap O S s) (s.exc e) (S.exc e)
  einj : ∀ e e' E E', s.exc e = some E → s.exc e' = some E' → E.owned = true → E'.owned = true → E.ptr = E'.ptr → e = e'
  list : ∀ c, OptRel (ListOk s.heap O S s) (s.list c) (S.list c)

theorem Rel.init : Rel (fun _ => .own) State.init Spec.init :=
  ⟨fun _ => trivial, fun _ _ _ h => (nomatch h), fun _ => trivial, fun _ _ _ _ h => (nomatch h), fun _ => trivial⟩

theorem OptRel.none_iff {α β : Type} {R : α → β → Prop} {a : Option α} {b : Option β} (h : OptRel R a b) : a = none ↔ b = none := by
  cases a <;> cases b <;> simp_all [OptRel]

theorem OptRel.of_none {α β : Type} {R : α → β → Prop} {b : Option β} (h : OptRel R none b) : b = none := by
  cases b with
  | none => rfl
  | some b => exact h.elim

theorem OptRel.of_some {α β : Type} {R : α → β → Prop} {a : α} {b : Option β} (h : OptRel R (some a) b) : ∃ b', b = some b' ∧ R a b' := by
  cases b with
  | none => exact h.elim
  | some b => exact ⟨b, rfl, h⟩

theorem OptRel.imp {α β : Type} {R R' : α → β → Prop} {a : Option α} {b : Option β} (h : OptRel R a b)
    (i : ∀ x y, a = some x → b = some y → R x y → R' x y) : OptRel R' a b := by
  cases a <;> cases b <;> simp_all [OptRel]

theorem put_same {α : Type} (f : Nat → Option α) (x : Nat) (v : Option α) : put f x v x = v := by simp [put]

theorem put_other {α : Type} (f : Nat → Option α) {x y : Nat} (v : Option α) (h : y ≠ x) : put f x v y = f y := by simp [put, h]

theorem put_put {α : Type} (f : Nat → Option α) (x : Nat) (v w : Option α) : put (put f x v) x w = put f x w := by
  funext y
  by_cases h : y = x <;> simp [put, h]

theorem put_comm {α : Type} (f : Nat → Option α) {x y : Nat} (v w : Option α) (h : x ≠ y) :
    put (put f x v) y w = put (put f y w) x v := by
  funext z
  by_cases h1 : z = x
  · subst h1; simp [put, h]
  · simp [put, h1]

theorem put_id {α : Type} (f : Nat → Option α) {x : Nat} {v : Option α} (h : f x = v) : put f x v = f := by
  funext y
  by_cases h1 : y = x
  · subst h1; simp [put, h]
  · simp [put, h1]

/-- Auxiliary: valid exceptions of a file refer to this pointer. -/
def ExcFrom (s : State) (S : Spec) (f : Nat) (p : Option Nat) : Prop :=
  ∀ e E n, s.exc e = some E → S.exc e = some n → E.owned = false → n.src = some f → n.valid = true → p = some E.ptr

/-- Auxiliary: valid lists of a file refer to this pointer. -/
def ListFrom (s : State) (S : Spec) (f : Nat) (p : Option Nat) : Prop :=
  ∀ c q n, s.list c = some (some q) → S.list c = some n → n.src = some f → n.valid = true → p = some q

section
variable {O : Nat → Owner} {s : State} {S : Spec}

theorem Rel.file_of (r : Rel O s S) {x : Nat} {o : Obj} (h : s.obj x = some o) : ∃ f, S.file x = some f ∧ ObjOk s.heap O S o f := by
  have := r.obj x
  rw [h] at this
  exact this.of_some

theorem Rel.file_none (r : Rel O s S) {x : Nat} (h : s.obj x = none) : S.file x = none := by
  have := r.obj x
  rw [h] at this
  exact this.of_none

theorem Rel.obj_of (r : Rel O s S) {x f : Nat} (h : S.file x = some f) : ∃ o, s.obj x = some o ∧ ObjOk s.heap O S o f := by
  cases ho : s.obj x with
  | none => rw [r.file_none ho] at h; cases h
  | some o =>
    obtain ⟨f', h1, h2⟩ := r.file_of ho
    rw [h1] at h
    cases h
    exact ⟨o, rfl, h2⟩

theorem Rel.note_of (r : Rel O s S) {e : Nat} {E : Exc} (h : s.exc e = some E) : ∃ n, S.exc e = some n ∧ ExcOk s.heap O S s E n := by
  have := r.exc e
  rw [h] at this
  exact this.of_some

theorem Rel.note_none (r : Rel O s S) {e : Nat} (h : s.exc e = none) : S.exc e = none := by
  have := r.exc e
  rw [h] at this
  exact this.of_none

theorem Rel.list_of (r : Rel O s S) {c : Nat} {l : Option Nat} (h : s.list c = some l) : ∃ n, S.list c = some n ∧ ListOk s.heap O S s l n := by
  have := r.list c
  rw [h] at this
  exact this.of_some

theorem Rel.list_none (r : Rel O s S) {c : Nat} (h : s.list c = none) : S.list c = none := by
  have := r.list c
  rw [h] at this
  exact this.of_none

theorem Rel.excFrom (r : Rel O s S) {x f : Nat} {o : Obj} (h : s.obj x = some o) (hf : S.file x = some f) : ExcFrom s S f o.err := by
  intro e E n hE hn ho hs hv
  obtain ⟨n', h1, h2⟩ := r.note_of hE
  rw [hn] at h1
  cases h1
  rcases h2 with ⟨h2, _⟩ | ⟨_, f', h3, _, _, h4⟩
  · rw [ho] at h2; cases h2
  · rw [hs] at h3
    cases h3
    rcases h4 with ⟨_, _, h5⟩ | ⟨h5, _⟩
    · exact h5 x o hf h
    · rw [hv] at h5; cases h5

theorem Rel.listFrom (r : Rel O s S) {x f : Nat} {o : Obj} (h : s.obj x = some o) (hf : S.file x = some f) : ListFrom s S f o.dir := by
  intro c q n hl hn hs hv
  obtain ⟨n', h1, h2⟩ := r.list_of hl
  rw [hn] at h1
  cases h1
  obtain ⟨f', h3, _, _, h4⟩ := h2
  rw [hs] at h3
  cases h3
  rcases h4 with ⟨_, _, h5⟩ | ⟨h5, _⟩
  · exact h5 x o hf h
  · rw [hv] at h5; cases h5

/-- An object disappears, its memory stays. -/
theorem Rel.forget (r : Rel O s S) (x : Nat) : Rel O { s with obj := put s.obj x none } { S with file := put S.file x none } := by
  have hb : ∀ k fld p n, Borrowed s.heap O S s k fld p n →
      Borrowed s.heap O { S with file := put S.file x none } { s with obj := put s.obj x none } k fld p n := by
    rintro k fld p n ⟨f, h1, h2, h3, h4⟩
    refine ⟨f, h1, h2, h3, ?_⟩
    rcases h4 with ⟨a, b, c⟩ | h4
    · refine .inl ⟨a, b, fun y o hy ho => ?_⟩
      by_cases hyx : y = x
      · subst hyx
        simp [put] at hy
      · simp only [put_other _ _ hyx] at hy ho
        exact c y o hy ho
    · exact .inr h4
  refine ⟨fun y => ?_, fun y z f hy hz => ?_, fun e => ?_, r.einj, fun c => ?_⟩
  · by_cases hyx : y = x
    · subst hyx
      simp only [put_same]
      trivial
    · simp only [put_other _ _ hyx]
      exact (r.obj y).imp fun o f _ _ h => ⟨h.lt, h.err, h.dir, h.nodir⟩
  · by_cases hyx : y = x
    · subst hyx; simp [put] at hy
    · by_cases hzx : z = x
      · subst hzx; simp [put] at hz
      · simp only [put_other _ _ hyx, put_other _ _ hzx] at hy hz
        exact r.inj y z f hy hz
  · refine (r.exc e).imp fun E n _ _ h => ?_
    rcases h with h | ⟨h1, h2⟩
    · exact .inl h
    · exact .inr ⟨h1, hb _ _ _ _ h2⟩
  · refine (r.list c).imp fun l n _ _ h => ?_
    cases l with
    | none => exact h
    | some p => exact hb _ _ _ _ h

/-- An object for a file that no other object refers to. -/
theorem Rel.addObj (r : Rel O s S) {x f : Nat} {o : Obj} (hx : s.obj x = none) (hf : ∀ y, S.file y ≠ some f) (ho : ObjOk s.heap O S o f)
    (he : ExcFrom s S f o.err) (hl : ListFrom s S f o.dir) :
    Rel O { s with obj := put s.obj x (some o) } { S with file := put S.file x (some f) } := by
  refine ⟨fun y => ?_, fun y z g hy hz => ?_, fun e => ?_, r.einj, fun c => ?_⟩
  · by_cases hyx : y = x
    · subst hyx
      simp only [put_same]
      exact ⟨ho.lt, ho.err, ho.dir, ho.nodir⟩
    · simp only [put_other _ _ hyx]
      exact (r.obj y).imp fun o f _ _ h => ⟨h.lt, h.err, h.dir, h.nodir⟩
  · by_cases hyx : y = x
    · by_cases hzx : z = x
      · rw [hyx, hzx]
      · subst hyx
        simp only [put_same] at hy
        cases hy
        simp only [put_other _ _ hzx] at hz
        exact absurd hz (hf z)
    · by_cases hzx : z = x
      · subst hzx
        simp only [put_same] at hz
        cases hz
        simp only [put_other _ _ hyx] at hy
        exact absurd hy (hf y)
      · simp only [put_other _ _ hyx, put_other _ _ hzx] at hy hz
        exact r.inj y z g hy hz
  · refine (r.exc e).imp fun E n hE hn h => ?_
    rcases h with h | ⟨h1, g, g1, g2, g3, g4⟩
    · exact .inl h
    · refine .inr ⟨h1, g, g1, g2, g3, ?_⟩
      rcases g4 with ⟨a, b, c⟩ | g4
      · refine .inl ⟨a, b, fun y o' hy ho' => ?_⟩
        by_cases hyx : y = x
        · subst hyx
          simp only [put_same] at hy ho'
          cases hy
          cases ho'
          exact he e E n hE hn h1 g1 a
        · simp only [put_other _ _ hyx] at hy ho'
          exact c y o' hy ho'
      · exact .inr g4
  · refine (r.list c).imp fun l n hl' hn h => ?_
    cases l with
    | none => exact h
    | some p =>
      obtain ⟨g, g1, g2, g3, g4⟩ := h
      refine ⟨g, g1, g2, g3, ?_⟩
      rcases g4 with ⟨a, b, d⟩ | g4
      · refine .inl ⟨a, b, fun y o' hy ho' => ?_⟩
        by_cases hyx : y = x
        · subst hyx
          simp only [put_same] at hy ho'
          cases hy
          cases ho'
          exact hl c p n hl' hn g1 a
        · simp only [put_other _ _ hyx] at hy ho'
          exact d y o' hy ho'
      · exact .inr g4

/-- A new block. -/
theorem Rel.alloc (r : Rel O s S) (t : List Bytes) (ow : Owner) :
    Rel (fun p => if p = s.heap.length then ow else O p) { s with heap := s.heap ++ [⟨true, t⟩] } S := by
  have hk : ∀ {p : Nat} {b : Block}, s.heap[p]? = some b → (s.heap ++ [⟨true, t⟩])[p]? = some b ∧ p ≠ s.heap.length := by
    intro p b h
    have := (List.getElem?_eq_some_iff.1 h).1
    exact ⟨by rw [List.getElem?_append_left this]; exact h, by omega⟩
  have hb : ∀ k fld p n, Borrowed s.heap O S s k fld p n →
      Borrowed (s.heap ++ [⟨true, t⟩]) (fun p => if p = s.heap.length then ow else O p) S { s with heap := s.heap ++ [⟨true, t⟩] } k fld p n := by
    rintro k fld p n ⟨f, h1, h2, h3, h4⟩
    rcases h4 with ⟨a, b, c⟩ | ⟨a, t', b⟩
    · obtain ⟨b1, b2⟩ := hk b
      exact ⟨f, h1, h2, by simp only [b2, if_false]; exact h3, .inl ⟨a, b1, c⟩⟩
    · obtain ⟨b1, b2⟩ := hk b
      exact ⟨f, h1, h2, by simp only [b2, if_false]; exact h3, .inr ⟨a, t', b1⟩⟩
  refine ⟨fun y => ?_, r.inj, fun e => ?_, r.einj, fun c => ?_⟩
  · refine (r.obj y).imp fun o f _ _ h => ⟨h.lt, fun p hp => ?_, fun p hp => ?_, h.nodir⟩
    · obtain ⟨a, t', b⟩ := h.err p hp
      obtain ⟨b1, b2⟩ := hk b
      exact ⟨by simp only [b2, if_false]; exact a, t', b1⟩
    · obtain ⟨a, b, c⟩ := h.dir p hp
      obtain ⟨b1, b2⟩ := hk b
      exact ⟨by simp only [b2, if_false]; exact a, b1, c⟩
  · refine (r.exc e).imp fun E n _ _ h => ?_
    rcases h with ⟨h1, h2, h3, h4, h5⟩ | ⟨h1, h2⟩
    · obtain ⟨b1, b2⟩ := hk h5
      exact .inl ⟨h1, h2, h3, by simp only [b2, if_false]; exact h4, b1⟩
    · exact .inr ⟨h1, hb _ _ _ _ h2⟩
  · refine (r.list c).imp fun l n _ _ h => ?_
    cases l with
    | none => exact h
    | some p => exact hb _ _ _ _ h

theorem expire_some {f e : Nat} {notes : Nat → Option Note} {n : Note} (h : notes e = some n) :
    expire f notes e = some (if n.src = some f then { n with valid := false } else n) := by simp [expire, h]

/-- The error string of a file is freed. -/
theorem Rel.killErr (r : Rel O s S) {p f : Nat} {t : List Bytes} (hp : s.heap[p]? = some ⟨true, t⟩) (hO : O p = .err f)
    (hobj : ∀ x o, s.obj x = some o → o.err ≠ some p) (he : ExcFrom s S f (some p)) :
    Rel O { s with heap := s.heap.set p ⟨false, t⟩ } { S with exc := expire f S.exc } := by
  have hlt := (List.getElem?_eq_some_iff.1 hp).1
  have hk : ∀ {q : Nat}, q ≠ p → (s.heap.set p ⟨false, t⟩)[q]? = s.heap[q]? := fun h => List.getElem?_set_ne (Ne.symm h)
  have hdead : (s.heap.set p ⟨false, t⟩)[p]? = some ⟨false, t⟩ := List.getElem?_set_self hlt
  refine ⟨fun y => ?_, r.inj, fun e => ?_, r.einj, fun c => ?_⟩
  · refine (r.obj y).imp fun o g hy _ h => ⟨h.lt, fun q hq => ?_, fun q hq => ?_, h.nodir⟩
    · have hqp : q ≠ p := by rintro rfl; exact hobj y o hy hq
      rw [hk hqp]
      exact h.err q hq
    · have hqp : q ≠ p := by
        rintro rfl
        have := (h.dir q hq).1
        rw [hO] at this
        cases this
      rw [hk hqp]
      exact h.dir q hq
  · cases hE : s.exc e with
    | none =>
      have := r.note_none hE
      simp [expire, this, OptRel]
    | some E =>
      obtain ⟨n, hn, h⟩ := r.note_of hE
      simp only [expire_some hn]
      show ExcOk _ _ _ _ _ _
      rcases h with ⟨h1, h2, h3, h4, h5⟩ | ⟨h1, g, g1, g2, g3, g4⟩
      · have hqp : E.ptr ≠ p := by
          intro h
          rw [h, hO] at h4
          cases h4
        rw [h2, if_neg (by simp)]
        exact .inl ⟨h1, h2, h3, h4, by rw [hk hqp]; exact h5⟩
      · by_cases hgf : g = f
        · subst hgf
          rw [if_pos g1]
          refine .inr ⟨h1, g, g1, g2, g3, .inr ⟨rfl, ?_⟩⟩
          rcases g4 with ⟨a, b, c⟩ | ⟨a, t', b⟩
          · have := he e E n hE hn h1 g1 a
            cases this
            exact ⟨t, hdead⟩
          · by_cases hqp : E.ptr = p
            · rw [hqp]; exact ⟨t, hdead⟩
            · exact ⟨t', by show (s.heap.set p ⟨false, t⟩)[E.ptr]? = _; rw [hk hqp]; exact b⟩
        · have hqp : E.ptr ≠ p := by
            intro h
            rw [h, hO] at g3
            cases g3
            exact hgf rfl
          rw [if_neg (by rw [g1]; simp [hgf])]
          refine .inr ⟨h1, g, g1, g2, g3, ?_⟩
          show _ ∨ (_ ∧ ∃ t', (s.heap.set p ⟨false, t⟩)[E.ptr]? = _)
          rw [hk hqp]
          exact g4
  · refine (r.list c).imp fun l n _ _ h => ?_
    cases l with
    | none => exact h
    | some q =>
      obtain ⟨g, g1, g2, g3, g4⟩ := h
      have hqp : q ≠ p := by
        rintro rfl
        rw [hO] at g3
        cases g3
      refine ⟨g, g1, g2, g3, ?_⟩
      show (_ ∧ (s.heap.set p ⟨false, t⟩)[q]? = _ ∧ _) ∨ (_ ∧ ∃ t', (s.heap.set p ⟨false, t⟩)[q]? = _)
      rw [hk hqp]
      exact g4

/-- A file without valid exceptions. -/
theorem Rel.expireErr (r : Rel O s S) {f : Nat} (he : ExcFrom s S f none) : Rel O s { S with exc := expire f S.exc } := by
  refine ⟨fun y => (r.obj y).imp fun o g _ _ h => ⟨h.lt, h.err, h.dir, h.nodir⟩, r.inj, fun e => ?_, r.einj, r.list⟩
  cases hE : s.exc e with
  | none =>
    have := r.note_none hE
    simp [expire, this, OptRel]
  | some E =>
    obtain ⟨n, hn, h⟩ := r.note_of hE
    simp only [expire_some hn]
    show ExcOk _ _ _ _ _ _
    rcases h with ⟨h1, h2, h3, h4, h5⟩ | ⟨h1, g, g1, g2, g3, g4⟩
    · rw [h2, if_neg (by simp)]
      exact .inl ⟨h1, h2, h3, h4, h5⟩
    · by_cases hgf : g = f
      · subst hgf
        rw [if_pos g1]
        refine .inr ⟨h1, g, g1, g2, g3, .inr ⟨rfl, ?_⟩⟩
        rcases g4 with ⟨a, b, c⟩ | ⟨a, t', b⟩
        · have := he e E n hE hn h1 g1 a
          cases this
        · exact ⟨t', b⟩
      · rw [if_neg (by rw [g1]; simp [hgf])]
        exact .inr ⟨h1, g, g1, g2, g3, g4⟩

/-- The names of a file are freed. -/
theorem Rel.killDir (r : Rel O s S) {p f : Nat} {t : List Bytes} (hp : s.heap[p]? = some ⟨true, t⟩) (hO : O p = .dir f)
    (hobj : ∀ x o, s.obj x = some o → o.dir ≠ some p) (he : ListFrom s S f (some p)) :
    Rel O { s with heap := s.heap.set p ⟨false, t⟩ } { S with list := expire f S.list } := by
  have hlt := (List.getElem?_eq_some_iff.1 hp).1
  have hk : ∀ {q : Nat}, q ≠ p → (s.heap.set p ⟨false, t⟩)[q]? = s.heap[q]? := fun h => List.getElem?_set_ne (Ne.symm h)
  have hdead : (s.heap.set p ⟨false, t⟩)[p]? = some ⟨false, t⟩ := List.getElem?_set_self hlt
  refine ⟨fun y => ?_, r.inj, fun e => ?_, r.einj, fun c => ?_⟩
  · refine (r.obj y).imp fun o g hy _ h => ⟨h.lt, fun q hq => ?_, fun q hq => ?_, h.nodir⟩
    · have hqp : q ≠ p := by
        rintro rfl
        have := (h.err q hq).1
        rw [hO] at this
        cases this
      rw [hk hqp]
      exact h.err q hq
    · have hqp : q ≠ p := by rintro rfl; exact hobj y o hy hq
      rw [hk hqp]
      exact h.dir q hq
  · refine (r.exc e).imp fun E n _ _ h => ?_
    rcases h with ⟨h1, h2, h3, h4, h5⟩ | ⟨h1, g, g1, g2, g3, g4⟩
    · have hqp : E.ptr ≠ p := by
        intro h
        rw [h, hO] at h4
        cases h4
      exact .inl ⟨h1, h2, h3, h4, by rw [hk hqp]; exact h5⟩
    · have hqp : E.ptr ≠ p := by
        intro h
        rw [h, hO] at g3
        cases g3
      refine .inr ⟨h1, g, g1, g2, g3, ?_⟩
      show (_ ∧ (s.heap.set p ⟨false, t⟩)[E.ptr]? = _ ∧ _) ∨ (_ ∧ ∃ t', (s.heap.set p ⟨false, t⟩)[E.ptr]? = _)
      rw [hk hqp]
      exact g4
  · cases hl : s.list c with
    | none =>
      have := r.list_none hl
      simp [expire, this, OptRel]
    | some l =>
      obtain ⟨n, hn, h⟩ := r.list_of hl
      simp only [expire_some hn]
      show ListOk _ _ _ _ _ _
      cases l with
      | none =>
        obtain ⟨h1, h2, h3⟩ := h
        rw [h1, if_neg (by simp)]
        exact ⟨h1, h2, h3⟩
      | some q =>
        obtain ⟨g, g1, g2, g3, g4⟩ := h
        by_cases hgf : g = f
        · subst hgf
          rw [if_pos g1]
          refine ⟨g, g1, g2, g3, .inr ⟨rfl, ?_⟩⟩
          rcases g4 with ⟨a, b, d⟩ | ⟨a, t', b⟩
          · have := he c q n hl hn g1 a
            cases this
            exact ⟨t, hdead⟩
          · by_cases hqp : q = p
            · rw [hqp]; exact ⟨t, hdead⟩
            · exact ⟨t', by rw [hk hqp]; exact b⟩
        · have hqp : q ≠ p := by
            rintro rfl
            rw [hO] at g3
            cases g3
            exact hgf rfl
          rw [if_neg (by rw [g1]; simp [hgf])]
          refine ⟨g, g1, g2, g3, ?_⟩
          rw [hk hqp]
          exact g4

/-- A file without valid lists. -/
theorem Rel.expireDir (r : Rel O s S) {f : Nat} (he : ListFrom s S f none) : Rel O s { S with list := expire f S.list } := by
  refine ⟨fun y => (r.obj y).imp fun o g _ _ h => ⟨h.lt, h.err, h.dir, h.nodir⟩, r.inj, r.exc, r.einj, fun c => ?_⟩
  cases hl : s.list c with
  | none =>
    have := r.list_none hl
    simp [expire, this, OptRel]
  | some l =>
    obtain ⟨n, hn, h⟩ := r.list_of hl
    simp only [expire_some hn]
    show ListOk _ _ _ _ _ _
    cases l with
    | none =>
      obtain ⟨h1, h2, h3⟩ := h
      rw [h1, if_neg (by simp)]
      exact ⟨h1, h2, h3⟩
    | some q =>
      obtain ⟨g, g1, g2, g3, g4⟩ := h
      by_cases hgf : g = f
      · subst hgf
        rw [if_pos g1]
        refine ⟨g, g1, g2, g3, .inr ⟨rfl, ?_⟩⟩
        rcases g4 with ⟨a, b, d⟩ | ⟨a, t', b⟩
        · have := he c q n hl hn g1 a
          cases this
        · exact ⟨t', b⟩
      · rw [if_neg (by rw [g1]; simp [hgf])]
        exact ⟨g, g1, g2, g3, g4⟩

/-- The number of a new file. -/
theorem Rel.bump (r : Rel O s S) (ns : List Bytes) :
    Rel O s { S with next := S.next + 1, names := fun f => if f = S.next then ns else S.names f } := by
  have hb : ∀ k fld p n, Borrowed s.heap O S s k fld p n →
      Borrowed s.heap O { S with next := S.next + 1, names := fun f => if f = S.next then ns else S.names f } s k fld p n := by
    rintro k fld p n ⟨f, h1, h2, h3, h4⟩
    exact ⟨f, h1, Nat.lt_succ_of_lt h2, h3, h4⟩
  refine ⟨fun y => ?_, r.inj, fun e => ?_, r.einj, fun c => ?_⟩
  · refine (r.obj y).imp fun o f _ _ h => ?_
    have hne : f ≠ S.next := Nat.ne_of_lt h.lt
    exact ⟨Nat.lt_succ_of_lt h.lt, h.err, by simp only [hne, if_false]; exact h.dir, by simp only [hne, if_false]; exact h.nodir⟩
  · refine (r.exc e).imp fun E n _ _ h => ?_
    rcases h with h | ⟨h1, h2⟩
    · exact .inl h
    · exact .inr ⟨h1, hb _ _ _ _ h2⟩
  · refine (r.list c).imp fun l n _ _ h => ?_
    cases l with
    | none => exact h
    | some p => exact hb _ _ _ _ h

theorem Rel.src_lt (r : Rel O s S) {e : Nat} {n : Note} {f : Nat} (h : S.exc e = some n) (hf : n.src = some f) : f < S.next := by
  cases hE : s.exc e with
  | none => rw [r.note_none hE] at h; cases h
  | some E =>
    obtain ⟨n', h1, h2⟩ := r.note_of hE
    rw [h] at h1
    cases h1
    rcases h2 with ⟨_, h2, _⟩ | ⟨_, g, g1, g2, _⟩
    · rw [hf] at h2; cases h2
    · rw [hf] at g1; cases g1; exact g2

theorem Rel.lsrc_lt (r : Rel O s S) {c : Nat} {n : Note} {f : Nat} (h : S.list c = some n) (hf : n.src = some f) : f < S.next := by
  cases hl : s.list c with
  | none => rw [r.list_none hl] at h; cases h
  | some l =>
    obtain ⟨n', h1, h2⟩ := r.list_of hl
    rw [h] at h1
    cases h1
    cases l with
    | none => rw [h2.1] at hf; cases hf
    | some p =>
      obtain ⟨g, g1, g2, _⟩ := h2
      rw [hf] at g1; cases g1; exact g2

/-- A new object without memory, for a new file. -/
theorem Rel.newEmpty (r : Rel O s S) {x : Nat} (hx : s.obj x = none) :
    Rel O { s with obj := put s.obj x (some {}) } (S.newFile x []) := by
  have := (r.bump []).addObj (x := x) (f := S.next) (o := {}) hx
    (fun y hy => by
      obtain ⟨o, _, h⟩ := r.obj_of (f := S.next) hy
      exact Nat.lt_irrefl _ h.lt)
    ⟨Nat.lt_succ_self _, fun p h => (nomatch h), fun p h => (nomatch h), fun _ => by simp⟩
    (fun e E n _ hn _ hs _ => absurd (r.src_lt hn hs) (Nat.lt_irrefl _))
    (fun c q n _ hn hs _ => absurd (r.lsrc_lt hn hs) (Nat.lt_irrefl _))
  exact this

/-- A new object with names, for a new file. -/
theorem Rel.newNames (r : Rel O s S) {x : Nat} (hx : s.obj x = none) {ns : List Bytes} (hns : ns ≠ []) :
    Rel (fun p => if p = s.heap.length then .dir S.next else O p)
      { s with heap := s.heap ++ [⟨true, ns⟩], obj := put s.obj x (some { dir := some s.heap.length }) } (S.newFile x ns) := by
  have r' := (r.alloc ns (.dir S.next)).bump ns
  have := r'.addObj (x := x) (f := S.next) (o := { dir := some s.heap.length }) hx
    (fun y hy => by
      obtain ⟨o, _, h⟩ := r.obj_of (f := S.next) hy
      exact Nat.lt_irrefl _ h.lt)
    ⟨Nat.lt_succ_self _, fun p h => (nomatch h), fun p h => by
      cases h
      simp only [if_true]
      exact ⟨trivial, by simp, hns⟩, fun h => (nomatch h)⟩
    (fun e E n _ hn _ hs _ => absurd (r.src_lt hn hs) (Nat.lt_irrefl _))
    (fun c q n _ hn hs _ => absurd (r.lsrc_lt hn hs) (Nat.lt_irrefl _))
  exact this

/-- An exception with its own message. -/
theorem Rel.ownExc (r : Rel O s S) {e : Nat} (he : s.exc e = none) (t : List Bytes) :
    Rel (fun p => if p = s.heap.length then .own else O p)
      { s with heap := s.heap ++ [⟨true, t⟩], exc := put s.exc e (some ⟨s.heap.length, true⟩) }
      { S with exc := put S.exc e (some ⟨t, none, true⟩) } := by
  have r' := r.alloc t .own
  refine ⟨fun y => (r'.obj y).imp fun o g _ _ h => ⟨h.lt, h.err, h.dir, h.nodir⟩, r.inj, fun a => ?_, fun a b A B ha hb hA hB hab => ?_, r'.list⟩
  · by_cases hae : a = e
    · subst hae
      simp only [put_same]
      exact .inl ⟨rfl, rfl, rfl, by simp, by simp⟩
    · simp only [put_other _ _ hae]
      exact r'.exc a
  · have hnew : ∀ c C, s.exc c = some C → C.owned = true → C.ptr ≠ s.heap.length := by
      intro c C hc hC h
      obtain ⟨n, _, h2⟩ := r.note_of hc
      rcases h2 with ⟨_, _, _, _, h2⟩ | ⟨h2, _⟩
      · have := (List.getElem?_eq_some_iff.1 h2).1
        omega
      · rw [hC] at h2; cases h2
    by_cases hae : a = e
    · by_cases hbe : b = e
      · rw [hae, hbe]
      · subst hae
        simp only [put_same] at ha
        simp only [put_other _ _ hbe] at hb
        cases ha
        exact absurd hab.symm (hnew b B hb hB)
    · by_cases hbe : b = e
      · subst hbe
        simp only [put_same] at hb
        simp only [put_other _ _ hae] at ha
        cases hb
        exact absurd hab (hnew a A ha hA)
      · simp only [put_other _ _ hae, put_other _ _ hbe] at ha hb
        exact r.einj a b A B ha hb hA hB hab

theorem Rel.ptr_err (r : Rel O s S) {x y f : Nat} {o o' : Obj} {p : Nat} (hx : s.obj x = some o) (hf : S.file x = some f)
    (hp : o.err = some p) (hy : s.obj y = some o') (hyx : y ≠ x) : o'.err ≠ some p := by
  intro h
  obtain ⟨f', h1, h2⟩ := r.file_of hy
  obtain ⟨g, g1, g2⟩ := r.file_of hx
  rw [hf] at g1
  cases g1
  have a := (h2.err p h).1
  have b := (g2.err p hp).1
  rw [a] at b
  cases b
  exact hyx (r.inj y x f h1 hf)

theorem Rel.ptr_dir (r : Rel O s S) {x y f : Nat} {o o' : Obj} {p : Nat} (hx : s.obj x = some o) (hf : S.file x = some f)
    (hp : o.dir = some p) (hy : s.obj y = some o') (hyx : y ≠ x) : o'.dir ≠ some p := by
  intro h
  obtain ⟨f', h1, h2⟩ := r.file_of hy
  obtain ⟨g, g1, g2⟩ := r.file_of hx
  rw [hf] at g1
  cases g1
  have a := (h2.dir p h).1
  have b := (g2.dir p hp).1
  rw [a] at b
  cases b
  exact hyx (r.inj y x f h1 hf)

/-- Free the error string of a file. -/
theorem Rel.clear (r : Rel O s S) {f : Nat} {perr : Option Nat}
    (hp : ∀ p, perr = some p → (∃ t, s.heap[p]? = some ⟨true, t⟩) ∧ O p = .err f ∧ ∀ x o, s.obj x = some o → o.err ≠ some p)
    (he : ExcFrom s S f perr) :
    ∃ h', free s.heap perr = .ok h' ∧ Rel O { s with heap := h' } { S with exc := expire f S.exc } := by
  cases perr with
  | none => exact ⟨s.heap, rfl, r.expireErr he⟩
  | some p =>
    obtain ⟨⟨t, ht⟩, hO, hobj⟩ := hp p rfl
    exact ⟨_, by simp only [free, ht], r.killErr ht hO hobj he⟩

/-- Free the names of a file. -/
theorem Rel.close (r : Rel O s S) {f : Nat} {pdir : Option Nat}
    (hp : ∀ p, pdir = some p → (∃ t, s.heap[p]? = some ⟨true, t⟩) ∧ O p = .dir f ∧ ∀ x o, s.obj x = some o → o.dir ≠ some p)
    (he : ListFrom s S f pdir) :
    ∃ h', free s.heap pdir = .ok h' ∧ Rel O { s with heap := h' } { S with list := expire f S.list } ∧
      ∀ q, pdir ≠ some q → h'[q]? = s.heap[q]? := by
  cases pdir with
  | none => exact ⟨s.heap, rfl, r.expireDir he, fun _ _ => rfl⟩
  | some p =>
    obtain ⟨⟨t, ht⟩, hO, hobj⟩ := hp p rfl
    exact ⟨_, by simp only [free, ht], r.killDir ht hO hobj he, fun q hq => List.getElem?_set_ne (fun h => hq (by rw [h]))⟩

theorem forget_other {x y : Nat} {o' : Obj} {obj : Nat → Option Obj} (h : put obj x none y = some o') : y ≠ x ∧ obj y = some o' := by
  by_cases hyx : y = x
  · subst hyx; simp [put] at h
  · exact ⟨hyx, by rw [put_other _ _ hyx] at h; exact h⟩

/-- What a call of the C library does at its start. -/
theorem Rel.cleared (r : Rel O s S) {x f : Nat} {o : Obj} (hx : s.obj x = some o) (hf : S.file x = some f) :
    ∃ h', free s.heap o.err = .ok h' ∧
      Rel O { s with heap := h', obj := put s.obj x none } { S with file := put S.file x none, exc := expire f S.exc } ∧
      (∀ q, o.dir = some q → h'[q]? = s.heap[q]?) := by
  obtain ⟨g, g1, g2⟩ := r.file_of hx
  rw [hf] at g1
  cases g1
  obtain ⟨h', h1, h2⟩ := (r.forget x).clear (f := f) (perr := o.err)
    (fun p hp => ⟨(g2.err p hp).2, (g2.err p hp).1, fun y o' hy => by
      obtain ⟨a, b⟩ := forget_other hy
      exact r.ptr_err hx hf hp b a⟩) (r.excFrom hx hf)
  refine ⟨h', h1, h2, fun q hq => ?_⟩
  cases hp : o.err with
  | none => rw [hp] at h1; cases h1; rfl
  | some p =>
    rw [hp] at h1
    obtain ⟨_, t, ht⟩ := g2.err p hp
    simp only [free, ht] at h1
    cases h1
    rw [List.getElem?_set_ne]
    rintro rfl
    have a := (g2.err p hp).1
    have b := (g2.dir p hq).1
    rw [a] at b
    cases b

theorem no_valid_exc {f : Nat} {notes : Nat → Option Note} {e : Nat} {n : Note} (h : expire f notes e = some n)
    (hs : n.src = some f) (hv : n.valid = true) : False := by
  unfold expire at h
  cases hn : notes e with
  | none => rw [hn] at h; cases h
  | some m =>
    rw [hn] at h
    simp only [Option.map_some, Option.some.injEq] at h
    by_cases hm : m.src = some f
    · rw [if_pos hm] at h
      subst h
      cases hv
    · rw [if_neg hm] at h
      subst h
      exact hm hs

theorem ExcFrom.expired {f : Nat} {s' : State} {S' : Spec} {p : Option Nat} (h : S'.exc = expire f S.exc) : ExcFrom s' S' f p := by
  intro e E n _ hn _ hs hv
  rw [h] at hn
  exact (no_valid_exc hn hs hv).elim

theorem file_forget (r : Rel O s S) {x f : Nat} (hf : S.file x = some f) (y : Nat) : put S.file x none y ≠ some f := by
  by_cases hyx : y = x
  · subst hyx; simp [put]
  · rw [put_other _ _ hyx]
    intro h
    exact hyx (r.inj y x f h hf)

/-- A call that succeeds. -/
theorem Rel.succeeds (r : Rel O s S) {x f : Nat} {o : Obj} (hx : s.obj x = some o) (hf : S.file x = some f) :
    ∃ h', free s.heap o.err = .ok h' ∧
      Rel O { s with heap := h', obj := put s.obj x (some { o with err := none }) } { S with exc := expire f S.exc } := by
  obtain ⟨g, g1, g2⟩ := r.file_of hx
  rw [hf] at g1
  cases g1
  obtain ⟨h', h1, h2, h3⟩ := r.cleared hx hf
  refine ⟨h', h1, ?_⟩
  have := h2.addObj (x := x) (f := f) (o := { o with err := none }) (put_same _ _ _) (file_forget r hf)
    ⟨g2.lt, fun p h => (nomatch h), fun p h => ⟨(g2.dir p h).1, by rw [h3 p h]; exact (g2.dir p h).2.1, (g2.dir p h).2.2⟩, g2.nodir⟩
    (.expired rfl) (fun c q n a b d e => r.listFrom hx hf c q n a b d e)
  simp only [put_put] at this
  rw [put_id S.file hf] at this
  exact this

/-- An exception that borrows its message. -/
theorem Rel.borrowExc (r : Rel O s S) {e p f : Nat} {t : List Bytes} (hlt : f < S.next) (hp : s.heap[p]? = some ⟨true, t⟩)
    (hO : O p = .err f) (ho : ∀ x o, S.file x = some f → s.obj x = some o → o.err = some p) :
    Rel O { s with exc := put s.exc e (some ⟨p, false⟩) } { S with exc := put S.exc e (some ⟨t, some f, true⟩) } := by
  refine ⟨fun y => (r.obj y).imp fun o g _ _ h => ⟨h.lt, h.err, h.dir, h.nodir⟩, r.inj, fun a => ?_, fun a b A B ha hb hA hB hab => ?_, r.list⟩
  · by_cases hae : a = e
    · subst hae
      simp only [put_same]
      exact .inr ⟨rfl, f, rfl, hlt, hO, .inl ⟨rfl, hp, ho⟩⟩
    · simp only [put_other _ _ hae]
      exact r.exc a
  · by_cases hae : a = e
    · subst hae
      simp only [put_same] at ha
      cases ha
      cases hA
    · by_cases hbe : b = e
      · subst hbe
        simp only [put_same] at hb
        cases hb
        cases hB
      · simp only [put_other _ _ hae, put_other _ _ hbe] at ha hb
        exact r.einj a b A B ha hb hA hB hab

/-- A call that fails. -/
theorem Rel.fails (r : Rel O s S) {x f e : Nat} {o : Obj} (hx : s.obj x = some o) (hf : S.file x = some f) (msg : Bytes) :
    ∃ h', free s.heap o.err = .ok h' ∧
      Rel (fun p => if p = h'.length then .err f else O p)
        ⟨h' ++ [⟨true, [msg]⟩], put s.obj x (some { o with err := some h'.length }), put s.exc e (some ⟨h'.length, false⟩), s.list⟩
        { S with exc := put (expire f S.exc) e (some ⟨[msg], some f, true⟩) } := by
  obtain ⟨g, g1, g2⟩ := r.file_of hx
  rw [hf] at g1
  cases g1
  obtain ⟨h', h1, h2, h3⟩ := r.cleared hx hf
  refine ⟨h', h1, ?_⟩
  have h4 := (h2.alloc [msg] (.err f)).addObj (x := x) (f := f) (o := { o with err := some h'.length }) (put_same _ _ _)
    (file_forget r hf)
    ⟨g2.lt, fun p h => by
      cases h
      exact ⟨by simp, [msg], by simp⟩, fun p h => by
      obtain ⟨a, b, c⟩ := g2.dir p h
      rw [← h3 p h] at b
      have hlt := (List.getElem?_eq_some_iff.1 b).1
      refine ⟨?_, ?_, c⟩
      · show (if p = h'.length then _ else _) = _
        rw [if_neg (by omega)]; exact a
      · show (h' ++ [_])[p]? = _
        rw [List.getElem?_append_left hlt]; exact b, g2.nodir⟩
    (.expired rfl) (fun c q n a b d e => r.listFrom hx hf c q n a b d e)
  simp only [put_put] at h4
  rw [put_id S.file hf] at h4
  exact h4.borrowExc (e := e) (p := h'.length) (f := f) (t := [msg]) g2.lt (by simp) (by simp) (fun y o' hy ho' => by
    have : y = x := r.inj y x f hy hf
    subst this
    simp only [put_same] at ho'
    cases ho'
    rfl)

/-- An object is destroyed. -/
theorem Rel.destroy (r : Rel O s S) {x f : Nat} {o : Obj} (hx : s.obj x = some o) (hf : S.file x = some f) :
    ∃ h1 h2, free s.heap o.dir = .ok h1 ∧ free h1 o.err = .ok h2 ∧
      Rel O { s with heap := h2, obj := put s.obj x none }
        { S with file := put S.file x none, exc := expire f S.exc, list := expire f S.list } := by
  obtain ⟨g, g1, g2⟩ := r.file_of hx
  rw [hf] at g1
  cases g1
  obtain ⟨h1, a1, a2, a3⟩ := (r.forget x).close (f := f) (pdir := o.dir)
    (fun p hp => ⟨⟨_, (g2.dir p hp).2.1⟩, (g2.dir p hp).1, fun y o' hy => by
      obtain ⟨a, b⟩ := forget_other hy
      exact r.ptr_dir hx hf hp b a⟩) (r.listFrom hx hf)
  obtain ⟨h2, b1, b2⟩ := a2.clear (f := f) (perr := o.err)
    (fun p hp => by
      obtain ⟨c1, t, c2⟩ := g2.err p hp
      refine ⟨⟨t, ?_⟩, c1, fun y o' hy => ?_⟩
      · show h1[p]? = _
        rw [a3 p (fun h => ?_)]
        · exact c2
        · have := (g2.dir p h).1
          rw [c1] at this
          cases this
      · obtain ⟨a, b⟩ := forget_other hy
        exact r.ptr_err hx hf hp b a) (r.excFrom hx hf)
  exact ⟨h1, h2, a1, b1, b2⟩

/-- An exception disappears; its memory stays. -/
theorem Rel.dropExc (r : Rel O s S) (e : Nat) : Rel O { s with exc := put s.exc e none } { S with exc := put S.exc e none } := by
  refine ⟨fun y => (r.obj y).imp fun o g _ _ h => ⟨h.lt, h.err, h.dir, h.nodir⟩, r.inj, fun a => ?_, fun a b A B ha hb hA hB hab => ?_, r.list⟩
  · by_cases hae : a = e
    · subst hae
      simp only [put_same]
      trivial
    · simp only [put_other _ _ hae]
      exact r.exc a
  · by_cases hae : a = e
    · subst hae; simp [put] at ha
    · by_cases hbe : b = e
      · subst hbe; simp [put] at hb
      · simp only [put_other _ _ hae, put_other _ _ hbe] at ha hb
        exact r.einj a b A B ha hb hA hB hab

/-- A message that no exception has any more is freed. -/
theorem Rel.killOwn (r : Rel O s S) {p : Nat} {t : List Bytes} (hO : O p = .own)
    (hexc : ∀ e E, s.exc e = some E → E.owned = true → E.ptr ≠ p) : Rel O { s with heap := s.heap.set p ⟨false, t⟩ } S := by
  have hk : ∀ {q : Nat}, q ≠ p → (s.heap.set p ⟨false, t⟩)[q]? = s.heap[q]? := fun h => List.getElem?_set_ne (Ne.symm h)
  have hne : ∀ {q : Nat} {f : Nat}, O q = .err f ∨ O q = .dir f → q ≠ p := by
    rintro q f h rfl
    rw [hO] at h
    rcases h with h | h <;> cases h
  refine ⟨fun y => ?_, r.inj, fun e => ?_, r.einj, fun c => ?_⟩
  · refine (r.obj y).imp fun o g _ _ h => ⟨h.lt, fun q hq => ?_, fun q hq => ?_, h.nodir⟩
    · rw [hk (hne (.inl (h.err q hq).1))]
      exact h.err q hq
    · rw [hk (hne (.inr (h.dir q hq).1))]
      exact h.dir q hq
  · refine (r.exc e).imp fun E n hE _ h => ?_
    rcases h with ⟨h1, h2, h3, h4, h5⟩ | ⟨h1, g, g1, g2, g3, g4⟩
    · exact .inl ⟨h1, h2, h3, h4, by rw [hk (hexc e E hE h1)]; exact h5⟩
    · refine .inr ⟨h1, g, g1, g2, g3, ?_⟩
      show (_ ∧ (s.heap.set p ⟨false, t⟩)[E.ptr]? = _ ∧ _) ∨ (_ ∧ ∃ t', (s.heap.set p ⟨false, t⟩)[E.ptr]? = _)
      rw [hk (hne (.inl g3))]
      exact g4
  · refine (r.list c).imp fun l n _ _ h => ?_
    cases l with
    | none => exact h
    | some q =>
      obtain ⟨g, g1, g2, g3, g4⟩ := h
      refine ⟨g, g1, g2, g3, ?_⟩
      show (_ ∧ (s.heap.set p ⟨false, t⟩)[q]? = _ ∧ _) ∨ (_ ∧ ∃ t', (s.heap.set p ⟨false, t⟩)[q]? = _)
      rw [hk (hne (.inr g3))]
      exact g4

/-- An exception is destroyed. -/
theorem Rel.destroyExc (r : Rel O s S) {e : Nat} {E : Exc} (hE : s.exc e = some E) :
    ∃ h', free s.heap (if E.owned then some E.ptr else none) = .ok h' ∧
      Rel O { s with heap := h', exc := put s.exc e none } { S with exc := put S.exc e none } := by
  obtain ⟨n, hn, h⟩ := r.note_of hE
  rcases h with ⟨h1, h2, h3, h4, h5⟩ | ⟨h1, _⟩
  · rw [h1, if_pos rfl]
    refine ⟨s.heap.set E.ptr ⟨false, n.text⟩, by simp only [free, h5], (r.dropExc e).killOwn h4 fun a A ha hA hp => ?_⟩
    by_cases hae : a = e
    · subst hae; simp [put] at ha
    · simp only [put_other _ _ hae] at ha
      exact hae (r.einj a e A E ha hE hA h1 hp)
  · rw [h1, if_neg (by simp)]
    exact ⟨s.heap, rfl, r.dropExc e⟩

/-- A list of names. -/
theorem Rel.addList (r : Rel O s S) {x f c : Nat} {o : Obj} (hx : s.obj x = some o) (hf : S.file x = some f) :
    Rel O { s with list := put s.list c (some o.dir) }
      { S with list := put S.list c (some ⟨S.names f, if S.names f = [] then none else some f, true⟩) } := by
  obtain ⟨g, g1, g2⟩ := r.file_of hx
  rw [hf] at g1
  cases g1
  refine ⟨fun y => (r.obj y).imp fun o g _ _ h => ⟨h.lt, h.err, h.dir, h.nodir⟩, r.inj, r.exc, r.einj, fun a => ?_⟩
  by_cases hac : a = c
  · subst hac
    simp only [put_same]
    show ListOk _ _ _ _ _ _
    cases hd : o.dir with
    | none =>
      have := g2.nodir hd
      exact ⟨by simp [this], rfl, this⟩
    | some p =>
      obtain ⟨d1, d2, d3⟩ := g2.dir p hd
      refine ⟨f, by simp [d3], g2.lt, d1, .inl ⟨rfl, d2, fun y o' hy ho' => ?_⟩⟩
      have : y = x := r.inj y x f hy hf
      subst this
      rw [hx] at ho'
      cases ho'
      exact hd
  · simp only [put_other _ _ hac]
    exact r.list a

theorem Rel.dropList (r : Rel O s S) (c : Nat) : Rel O { s with list := put s.list c none } { S with list := put S.list c none } := by
  refine ⟨fun y => (r.obj y).imp fun o g _ _ h => ⟨h.lt, h.err, h.dir, h.nodir⟩, r.inj, r.exc, r.einj, fun a => ?_⟩
  by_cases hac : a = c
  · subst hac
    simp only [put_same]
    trivial
  · simp only [put_other _ _ hac]
    exact r.list a

/-- A handle is moved. -/
theorem Rel.move (r : Rel O s S) {x y f : Nat} {o : Obj} (hy : s.obj y = some o) (hf : S.file y = some f) :
    Rel O { s with obj := put (put s.obj x (some o)) y (some {}) } (({ S with file := put S.file x (some f) } : Spec).newFile y []) := by
  obtain ⟨g, g1, g2⟩ := r.file_of hy
  rw [hf] at g1
  cases g1
  by_cases hxy : x = y
  · subst hxy
    have := (r.forget x).newEmpty (x := x) (put_same _ _ _)
    unfold Spec.newFile at this ⊢
    simp only [put_put] at this ⊢
    exact this
  · have r1 := (r.forget y).forget x
    have r2 := r1.addObj (x := x) (f := f) (o := o) (put_same _ _ _)
      (fun z => by
        show put (put S.file y none) x none z ≠ some f
        by_cases hzx : z = x
        · subst hzx; simp [put]
        · rw [put_other _ _ hzx]
          exact file_forget r hf z)
      ⟨g2.lt, g2.err, g2.dir, g2.nodir⟩ (r.excFrom hy hf) (r.listFrom hy hf)
    simp only [put_put] at r2
    have r3 := r2.newEmpty (x := y) (by
      show put (put s.obj y none) x (some o) y = none
      rw [put_other _ _ (Ne.symm hxy), put_same])
    unfold Spec.newFile at r3 ⊢
    rw [put_comm s.obj (some o) (some {}) hxy, put_comm S.file (some f) (some S.next) hxy]
    have e1 : ∀ {α : Type} (g : Nat → Option α) (a b : Option α), put (put (put g y none) x a) y b = put (put g y b) x a := by
      intro α g a b
      rw [put_comm _ a b hxy, put_put]
    simp only [e1] at r3
    exact r3

theorem load_live {h : Heap} {p : Nat} {t : List Bytes} (hp : h[p]? = some ⟨true, t⟩) : load h p = .ok t := by simp [load, hp]

theorem load_dead {h : Heap} {p : Nat} {t : List Bytes} (hp : h[p]? = some ⟨false, t⟩) : load h p = .ub := by simp [load, hp]

theorem Borrowed.look {k : Nat → Owner} {fld : Obj → Option Nat} {p : Nat} {n : Note} (b : Borrowed s.heap O S s k fld p n) :
    load s.heap p = n.look := by
  obtain ⟨f, _, _, _, h⟩ := b
  rcases h with ⟨h1, h2, _⟩ | ⟨h1, t, h2⟩
  · rw [load_live h2, Note.look, if_pos h1]
  · rw [load_dead h2, Note.look, if_neg (by simp [h1])]

theorem ExcOk.look {E : Exc} {n : Note} (h : ExcOk s.heap O S s E n) : load s.heap E.ptr = n.look := by
  rcases h with ⟨_, _, h1, _, h2⟩ | ⟨_, h⟩
  · rw [load_live h2, Note.look, if_pos h1]
  · exact h.look

end

/-! ## Every step -/

/-- Auxiliary: the same outcome, the same visible texts, and related states. -/
def Same : Res (State × List (List Bytes)) → Res (Spec × List (List Bytes)) → Prop
  | .ok (s, o), .ok (S, o') => o = o' ∧ ∃ O, Rel O s S
  | .err, .err => True
  | .ub, .ub => True
  | .abort, .abort => True
  | _, _ => False

theorem step_same {O : Nat → Owner} {s : State} {S : Spec} (r : Rel O s S) (c : Cmd) : Same (s.step c) (S.step c) := by
  cases c with
  | openFile x names =>
    cases hx : s.obj x with
    | some o =>
      obtain ⟨f, hf, _⟩ := r.file_of hx
      simp only [State.step, Spec.step, hx, hf, Same]
    | none =>
      simp only [State.step, Spec.step, hx, r.file_none hx]
      by_cases hn : names = []
      · rw [if_pos hn]
        subst hn
        exact ⟨rfl, _, r.newEmpty hx⟩
      · rw [if_neg hn]
        exact ⟨rfl, _, r.newNames hx hn⟩
  | openFails e msg =>
    cases he : s.exc e with
    | some E =>
      obtain ⟨n, hn, _⟩ := r.note_of he
      simp only [State.step, Spec.step, he, hn, Same]
    | none =>
      simp only [State.step, Spec.step, he, r.note_none he]
      exact ⟨rfl, _, r.ownExc he _⟩
  | fails x e msg =>
    cases hx : s.obj x with
    | none => simp only [State.step, Spec.step, hx, r.file_none hx, Same]
    | some o =>
      obtain ⟨f, hf, _⟩ := r.file_of hx
      cases he : s.exc e with
      | some E =>
        obtain ⟨n, hn, _⟩ := r.note_of he
        simp only [State.step, Spec.step, hx, hf, he, hn, Same]
      | none =>
        obtain ⟨h', h1, h2⟩ := r.fails (e := e) hx hf msg
        simp only [State.step, Spec.step, hx, hf, he, r.note_none he, h1, Res.bind_ok]
        exact ⟨rfl, _, h2⟩
  | succeeds x =>
    cases hx : s.obj x with
    | none => simp only [State.step, Spec.step, hx, r.file_none hx, Same]
    | some o =>
      obtain ⟨f, hf, _⟩ := r.file_of hx
      obtain ⟨h', h1, h2⟩ := r.succeeds hx hf
      simp only [State.step, Spec.step, hx, hf, h1, Res.bind_ok]
      exact ⟨rfl, _, h2⟩
  | failsOwn x e msg =>
    cases hx : s.obj x with
    | none => simp only [State.step, Spec.step, hx, r.file_none hx, Same]
    | some o =>
      obtain ⟨f, hf, _⟩ := r.file_of hx
      cases he : s.exc e with
      | some E =>
        obtain ⟨n, hn, _⟩ := r.note_of he
        simp only [State.step, Spec.step, hx, hf, he, hn, Same]
      | none =>
        simp only [State.step, Spec.step, hx, hf, he, r.note_none he]
        exact ⟨rfl, _, r.ownExc he _⟩
  | children x c =>
    cases hx : s.obj x with
    | none => simp only [State.step, Spec.step, hx, r.file_none hx, Same]
    | some o =>
      obtain ⟨f, hf, _⟩ := r.file_of hx
      cases hl : s.list c with
      | some l =>
        obtain ⟨n, hn, _⟩ := r.list_of hl
        simp only [State.step, Spec.step, hx, hf, hl, hn, Same]
      | none =>
        simp only [State.step, Spec.step, hx, hf, hl, r.list_none hl]
        exact ⟨rfl, _, r.addList hx hf⟩
  | what e =>
    cases he : s.exc e with
    | none => simp only [State.step, Spec.step, he, r.note_none he, Same]
    | some E =>
      obtain ⟨n, hn, h⟩ := r.note_of he
      simp only [State.step, Spec.step, he, hn, h.look]
      cases n.look with
      | ok t => exact ⟨rfl, _, r⟩
      | err => trivial
      | ub => trivial
      | abort => trivial
  | names c =>
    cases hl : s.list c with
    | none => simp only [State.step, Spec.step, hl, r.list_none hl, Same]
    | some l =>
      obtain ⟨n, hn, h⟩ := r.list_of hl
      cases l with
      | none =>
        obtain ⟨_, h2, h3⟩ := h
        simp only [State.step, Spec.step, hl, hn, Note.look, h2, h3, if_true, Res.bind_ok]
        exact ⟨rfl, _, r⟩
      | some p =>
        have h' : Borrowed s.heap O S s .dir (·.dir) p n := h
        simp only [State.step, Spec.step, hl, hn, h'.look]
        cases n.look with
        | ok t => exact ⟨rfl, _, r⟩
        | err => trivial
        | ub => trivial
        | abort => trivial
  | copyExc e e' =>
    cases he : s.exc e with
    | some E =>
      obtain ⟨n, hn, _⟩ := r.note_of he
      simp only [State.step, Spec.step, he, hn, Same]
    | none =>
      cases he' : s.exc e' with
      | none => simp only [State.step, Spec.step, he, he', r.note_none he, r.note_none he', Same]
      | some E =>
        obtain ⟨n, hn, h⟩ := r.note_of he'
        simp only [State.step, Spec.step, he, he', r.note_none he, hn, h.look]
        cases n.look with
        | ok t => exact ⟨rfl, _, r.ownExc he t⟩
        | err => trivial
        | ub => trivial
        | abort => trivial
  | moveCtor x y =>
    cases hx : s.obj x with
    | some o =>
      obtain ⟨f, hf, _⟩ := r.file_of hx
      simp only [State.step, Spec.step, hx, hf, Same]
    | none =>
      cases hy : s.obj y with
      | none => simp only [State.step, Spec.step, hx, hy, r.file_none hx, r.file_none hy, Same]
      | some o =>
        obtain ⟨f, hf, _⟩ := r.file_of hy
        simp only [State.step, Spec.step, hx, hy, r.file_none hx, hf]
        exact ⟨rfl, _, r.move hy hf⟩
  | moveAssign x y =>
    cases hx : s.obj x with
    | none => simp only [State.step, Spec.step, hx, r.file_none hx, Same]
    | some o' =>
      obtain ⟨f', hf', _⟩ := r.file_of hx
      cases hy : s.obj y with
      | none => simp only [State.step, Spec.step, hx, hy, hf', r.file_none hy, Same]
      | some o =>
        obtain ⟨f, hf, _⟩ := r.file_of hy
        simp only [State.step, Spec.step, hx, hy, hf', hf]
        exact ⟨rfl, _, r.move hy hf⟩
  | destroy x =>
    cases hx : s.obj x with
    | none => simp only [State.step, Spec.step, hx, r.file_none hx, Same]
    | some o =>
      obtain ⟨f, hf, _⟩ := r.file_of hx
      obtain ⟨h1, h2, a, b, c⟩ := r.destroy hx hf
      simp only [State.step, Spec.step, hx, hf, a, b, Res.bind_ok]
      exact ⟨rfl, _, c⟩
  | destroyExc e =>
    cases he : s.exc e with
    | none => simp only [State.step, Spec.step, he, r.note_none he, Same]
    | some E =>
      obtain ⟨n, hn, _⟩ := r.note_of he
      obtain ⟨h', a, b⟩ := r.destroyExc he
      simp only [State.step, Spec.step, he, hn, a, Res.bind_ok]
      exact ⟨rfl, _, b⟩
  | destroyList c =>
    cases hl : s.list c with
    | none => simp only [State.step, Spec.step, hl, r.list_none hl, Same]
    | some l =>
      obtain ⟨n, hn, _⟩ := r.list_of hl
      simp only [State.step, Spec.step, hl, hn]
      exact ⟨rfl, _, r.dropList c⟩

theorem run_same (cs : List Cmd) {O : Nat → Owner} {s : State} {S : Spec} (r : Rel O s S) : Same (State.run cs s) (Spec.run cs S) := by
  induction cs generalizing O s S with
  | nil => exact ⟨rfl, _, r⟩
  | cons c cs ih =>
    have h := step_same r c
    rw [State.run, Spec.run]
    cases h1 : s.step c with
    | err => cases h2 : S.step c <;> rw [h1, h2] at h <;> first | trivial | exact h.elim
    | ub => cases h2 : S.step c <;> rw [h1, h2] at h <;> first | trivial | exact h.elim
    | abort => cases h2 : S.step c <;> rw [h1, h2] at h <;> first | trivial | exact h.elim
    | ok a =>
      cases h2 : S.step c with
      | err => rw [h1, h2] at h; exact h.elim
      | ub => rw [h1, h2] at h; exact h.elim
      | abort => rw [h1, h2] at h; exact h.elim
      | ok b =>
        rw [h1, h2] at h
        obtain ⟨s1, o1⟩ := a
        obtain ⟨S1, o2⟩ := b
        obtain ⟨rfl, O', r'⟩ := h
        have hi := ih r'
        simp only [Res.bind_ok]
        cases k1 : State.run cs s1 with
        | err => cases k2 : Spec.run cs S1 <;> rw [k1, k2] at hi <;> first | trivial | exact hi.elim
        | ub => cases k2 : Spec.run cs S1 <;> rw [k1, k2] at hi <;> first | trivial | exact hi.elim
        | abort => cases k2 : Spec.run cs S1 <;> rw [k1, k2] at hi <;> first | trivial | exact hi.elim
        | ok a =>
          cases k2 : Spec.run cs S1 with
          | err => rw [k1, k2] at hi; exact hi.elim
          | ub => rw [k1, k2] at hi; exact hi.elim
          | abort => rw [k1, k2] at hi; exact hi.elim
          | ok b =>
            rw [k1, k2] at hi
            obtain ⟨s2, o3⟩ := a
            obtain ⟨S2, o4⟩ := b
            obtain ⟨rfl, O'', r''⟩ := hi
            exact ⟨rfl, O'', r''⟩

/-! ## C76 -/

/-- Specification: what a program sees, without the final state. -/
def seen {α : Type} : Res (α × List (List Bytes)) → Res (List (List Bytes))
  | .ok (_, o) => .ok o
  | .err => .err
  | .ub => .ub
  | .abort => .abort

/-- C76 in its exact form: every program with any number of files, exceptions and lists sees exactly the messages and names of
the specification, and it uses freed memory exactly if it looks at an exception or a list after its text expired. -/
theorem c76_exact (cs : List Cmd) : seen (State.run cs State.init) = seen (Spec.run cs Spec.init) := by
  have h := run_same cs Rel.init
  cases h1 : State.run cs State.init <;> cases h2 : Spec.run cs Spec.init <;> rw [h1, h2] at h <;>
    first
      | rfl
      | exact h.elim
      | (obtain ⟨h, _⟩ := h; exact congrArg Res.ok h)

theorem run_snoc (cs ds : List Cmd) (s : State) : State.run (cs ++ ds) s = (do
    let (s, o) ← State.run cs s
    let (s, o') ← State.run ds s
    .ok (s, o ++ o')) := by
  induction cs generalizing s with
  | nil =>
    show _ = (do let (s, o) ← State.run ds s; Res.ok (s, [] ++ o))
    rw [List.nil_append]
    cases h : State.run ds s <;> simp
  | cons c cs ih =>
    simp only [List.cons_append, State.run]
    cases s.step c with
    | ok a =>
      obtain ⟨s1, o1⟩ := a
      simp only [Res.bind_ok, ih]
      cases State.run cs s1 with
      | ok b =>
        obtain ⟨s2, o2⟩ := b
        simp only [Res.bind_ok]
        cases State.run ds s2 with
        | ok d => simp
        | err => rfl
        | ub => rfl
        | abort => rfl
      | err => rfl
      | ub => rfl
      | abort => rfl
    | err => rfl
    | ub => rfl
    | abort => rfl

/-- Specification: a command that neither reads from a file nor closes one, nor destroys the exception `e`. -/
def Quiet (e : Nat) : Cmd → Prop
  | .fails _ _ _ => False
  | .succeeds _ => False
  | .destroy _ => False
  | .destroyExc e' => e' ≠ e
  | _ => True

theorem quiet_step {e : Nat} {c : Cmd} (q : Quiet e c) {S S' : Spec} {o : List (List Bytes)} {n : Note} (h : S.exc e = some n)
    (hs : S.step c = .ok (S', o)) : S'.exc e = some n := by
  have hput : ∀ {a : Nat} {v : Option Note}, S.exc a = none → put S.exc a v e = some n := by
    intro a v ha
    rw [put_other _ _ (by rintro rfl; rw [ha] at h; cases h)]
    exact h
  cases c with
  | fails => exact q.elim
  | succeeds => exact q.elim
  | destroy => exact q.elim
  | openFile x names =>
    simp only [Spec.step] at hs
    split at hs <;> cases hs
    exact h
  | openFails a msg =>
    simp only [Spec.step] at hs
    split at hs <;> cases hs
    rename_i ha
    exact hput ha
  | failsOwn x a msg =>
    simp only [Spec.step] at hs
    split at hs <;> cases hs
    rename_i ha
    exact hput ha
  | children x c =>
    simp only [Spec.step] at hs
    split at hs <;> cases hs
    exact h
  | what a =>
    simp only [Spec.step] at hs
    split at hs
    · rename_i m _
      cases hm : m.look <;> rw [hm] at hs <;> cases hs
      exact h
    · cases hs
  | names c =>
    simp only [Spec.step] at hs
    split at hs
    · rename_i m _
      cases hm : m.look <;> rw [hm] at hs <;> cases hs
      exact h
    · cases hs
  | copyExc a b =>
    simp only [Spec.step] at hs
    split at hs
    · rename_i m ha _
      cases hm : m.look <;> rw [hm] at hs <;> cases hs
      exact hput ha
    · cases hs
  | moveCtor x y =>
    simp only [Spec.step] at hs
    split at hs <;> cases hs
    exact h
  | moveAssign x y =>
    simp only [Spec.step] at hs
    split at hs <;> cases hs
    exact h
  | destroyExc a =>
    simp only [Spec.step] at hs
    split at hs <;> cases hs
    show put S.exc a none e = _
    rw [put_other _ _ (Ne.symm q)]
    exact h
  | destroyList c =>
    simp only [Spec.step] at hs
    split at hs <;> cases hs
    exact h

theorem quiet_run {e : Nat} (cs : List Cmd) (q : ∀ c ∈ cs, Quiet e c) {S S' : Spec} {o : List (List Bytes)} {n : Note}
    (h : S.exc e = some n) (hs : Spec.run cs S = .ok (S', o)) : S'.exc e = some n := by
  induction cs generalizing S o with
  | nil => cases hs; exact h
  | cons c cs ih =>
    rw [Spec.run] at hs
    cases h1 : S.step c with
    | ok a =>
      obtain ⟨S1, o1⟩ := a
      rw [h1] at hs
      simp only [Res.bind_ok] at hs
      cases h2 : Spec.run cs S1 with
      | ok b =>
        obtain ⟨S2, o2⟩ := b
        rw [h2] at hs
        cases hs
        exact ih (fun c hc => q c (by simp [hc])) (quiet_step (q c (by simp)) h h1) h2
      | err => rw [h2] at hs; cases hs
      | ub => rw [h2] at hs; cases hs
      | abort => rw [h2] at hs; cases hs
    | err => rw [h1] at hs; cases hs
    | ub => rw [h1] at hs; cases hs
    | abort => rw [h1] at hs; cases hs

/-- Auxiliary: a successful run of the program is one of the specification. -/
theorem Rel.run {O : Nat → Owner} {s s' : State} {S : Spec} (r : Rel O s S) {cs : List Cmd} {o : List (List Bytes)}
    (h : State.run cs s = .ok (s', o)) : ∃ S' O', Spec.run cs S = .ok (S', o) ∧ Rel O' s' S' := by
  have := run_same cs r
  rw [h] at this
  cases h2 : Spec.run cs S with
  | ok b =>
    rw [h2] at this
    obtain ⟨S', o'⟩ := b
    obtain ⟨rfl, O', r'⟩ := this
    exact ⟨S', O', rfl, r'⟩
  | err => rw [h2] at this; exact this.elim
  | ub => rw [h2] at this; exact this.elim
  | abort => rw [h2] at this; exact this.elim

theorem Rel.step {O : Nat → Owner} {s s' : State} {S : Spec} (r : Rel O s S) {c : Cmd} {o : List (List Bytes)}
    (h : s.step c = .ok (s', o)) : ∃ S' O', S.step c = .ok (S', o) ∧ Rel O' s' S' := by
  have := step_same r c
  rw [h] at this
  cases h2 : S.step c with
  | ok b =>
    rw [h2] at this
    obtain ⟨S', o'⟩ := b
    obtain ⟨rfl, O', r'⟩ := this
    exact ⟨S', O', rfl, r'⟩
  | err => rw [h2] at this; exact this.elim
  | ub => rw [h2] at this; exact this.elim
  | abort => rw [h2] at this; exact this.elim

/-- C76: the message of an exception is the message of the call that failed, as long as no function reads from a file or
destroys a file between the exception and looking at it; moving objects, other exceptions and lists do not matter.
(Missing: programs that read or destroy the file in between, see `c76_unwinding`, `c76_next_call`.) -/
theorem c76_message_partial (cs ds : List Cmd) (x e : Nat) (msg : Bytes) (q : ∀ c ∈ ds, Quiet e c) {s : State}
    {o : List (List Bytes)} (h : State.run (cs ++ .fails x e msg :: ds) State.init = .ok (s, o)) :
    s.step (.what e) = .ok (s, [[msg]]) := by
  rw [run_snoc] at h
  cases h1 : State.run cs State.init with
  | ok a =>
    obtain ⟨s1, o1⟩ := a
    rw [h1] at h
    simp only [Res.bind_ok, State.run] at h
    obtain ⟨S1, O1, _, r1⟩ := Rel.init.run h1
    cases h2 : s1.step (.fails x e msg) with
    | ok b =>
      obtain ⟨s2, o2⟩ := b
      rw [h2] at h
      simp only [Res.bind_ok] at h
      obtain ⟨S2, O2, k2, r2⟩ := r1.step h2
      cases h3 : State.run ds s2 with
      | ok d =>
        obtain ⟨s3, o3⟩ := d
        rw [h3] at h
        cases h
        obtain ⟨S3, O3, k3, r3⟩ := r2.run h3
        have hexc : S2.exc e = some ⟨[msg], (S2.exc e).bind Note.src, true⟩ := by
          simp only [Spec.step] at k2
          split at k2 <;> cases k2
          simp [put]
        have := quiet_run ds q hexc k3
        cases he : s3.exc e with
        | none => rw [r3.note_none he] at this; cases this
        | some E =>
          obtain ⟨n, hn, hok⟩ := r3.note_of he
          rw [this] at hn
          cases hn
          simp only [State.step, he, hok.look, Note.look, if_true, Res.bind_ok]
      | err => rw [h3] at h; cases h
      | ub => rw [h3] at h; cases h
      | abort => rw [h3] at h; cases h
    | err => rw [h2] at h; cases h
    | ub => rw [h2] at h; cases h
    | abort => rw [h2] at h; cases h
  | err => rw [h1] at h; cases h
  | ub => rw [h1] at h; cases h
  | abort => rw [h1] at h; cases h

/-- Auxiliary: after this the message of `e` is gone. -/
theorem expired_what {O : Nat → Owner} {s : State} {S : Spec} (r : Rel O s S) {e : Nat} {n : Note} (h : S.exc e = some n)
    (hv : n.valid = false) : s.step (.what e) = .ub := by
  cases he : s.exc e with
  | none => rw [r.note_none he] at h; cases h
  | some E =>
    obtain ⟨n', hn, hok⟩ := r.note_of he
    rw [h] at hn
    cases hn
    simp only [State.step, he, hok.look, Note.look, hv]
    rfl

/-- C76 is violated: in every program, if a call on a file fails and the file is destroyed before the exception is looked at
(as it happens if the object is a local variable of the `try` block), freed memory is read. -/
theorem c76_unwinding (cs : List Cmd) (x e : Nat) (msg : Bytes) {s : State} {o : List (List Bytes)}
    (h : State.run (cs ++ [.fails x e msg, .destroy x]) State.init = .ok (s, o)) :
    s.step (.what e) = .ub := by
  obtain ⟨S, O, k, r⟩ := Rel.init.run h
  rw [run_snoc] at h
  cases h1 : State.run cs State.init with
  | ok a =>
    obtain ⟨s1, o1⟩ := a
    rw [h1] at h
    simp only [Res.bind_ok, State.run] at h
    obtain ⟨S1, O1, _, r1⟩ := Rel.init.run h1
    cases h2 : s1.step (.fails x e msg) with
    | ok b =>
      obtain ⟨s2, o2⟩ := b
      rw [h2] at h
      simp only [Res.bind_ok] at h
      obtain ⟨S2, O2, k2, r2⟩ := r1.step h2
      cases h3 : s2.step (.destroy x) with
      | ok d =>
        obtain ⟨s3, o3⟩ := d
        rw [h3] at h
        cases h
        obtain ⟨S3, O3, k3, r3⟩ := r2.step h3
        simp only [Spec.step] at k2
        split at k2 <;> cases k2
        rename_i f hf he
        simp only [Spec.step, hf] at k3
        cases k3
        exact expired_what r3 (e := e) (n := ⟨[msg], some f, false⟩) (by simp [expire, put]) rfl
      | err => rw [h3] at h; cases h
      | ub => rw [h3] at h; cases h
      | abort => rw [h3] at h; cases h
    | err => rw [h2] at h; cases h
    | ub => rw [h2] at h; cases h
    | abort => rw [h2] at h; cases h
  | err => rw [h1] at h; cases h
  | ub => rw [h1] at h; cases h
  | abort => rw [h1] at h; cases h

/-- C76 is violated: a later call on the same file frees the message of the exception. -/
theorem c76_next_call (cs : List Cmd) (x e : Nat) (msg : Bytes) {s : State} {o : List (List Bytes)}
    (h : State.run (cs ++ [.fails x e msg, .succeeds x]) State.init = .ok (s, o)) :
    s.step (.what e) = .ub := by
  rw [run_snoc] at h
  cases h1 : State.run cs State.init with
  | ok a =>
    obtain ⟨s1, o1⟩ := a
    rw [h1] at h
    simp only [Res.bind_ok, State.run] at h
    obtain ⟨S1, O1, _, r1⟩ := Rel.init.run h1
    cases h2 : s1.step (.fails x e msg) with
    | ok b =>
      obtain ⟨s2, o2⟩ := b
      rw [h2] at h
      simp only [Res.bind_ok] at h
      obtain ⟨S2, O2, k2, r2⟩ := r1.step h2
      cases h3 : s2.step (.succeeds x) with
      | ok d =>
        obtain ⟨s3, o3⟩ := d
        rw [h3] at h
        cases h
        obtain ⟨S3, O3, k3, r3⟩ := r2.step h3
        simp only [Spec.step] at k2
        split at k2 <;> cases k2
        rename_i f hf he
        simp only [Spec.step, hf] at k3
        cases k3
        exact expired_what r3 (e := e) (n := ⟨[msg], some f, false⟩) (by simp [expire, put]) rfl
      | err => rw [h3] at h; cases h
      | ub => rw [h3] at h; cases h
      | abort => rw [h3] at h; cases h
    | err => rw [h2] at h; cases h
    | ub => rw [h2] at h; cases h
    | abort => rw [h2] at h; cases h
  | err => rw [h1] at h; cases h
  | ub => rw [h1] at h; cases h
  | abort => rw [h1] at h; cases h

/-- Specification: not the destruction of the exception `e`. -/
def Keeps (e : Nat) : Cmd → Prop
  | .destroyExc e' => e' ≠ e
  | _ => True

theorem own_step {e : Nat} {c : Cmd} (q : Keeps e c) {S S' : Spec} {o : List (List Bytes)} {t : List Bytes}
    (h : S.exc e = some ⟨t, none, true⟩) (hs : S.step c = .ok (S', o)) : S'.exc e = some ⟨t, none, true⟩ := by
  have hput : ∀ {a : Nat} {v : Option Note} {g : Nat → Option Note}, g e = some ⟨t, none, true⟩ → S.exc a = none →
      put g a v e = some ⟨t, none, true⟩ := by
    intro a v g hg ha
    rw [put_other _ _ (by rintro rfl; rw [ha] at h; cases h)]
    exact hg
  have hex : ∀ f, expire f S.exc e = some ⟨t, none, true⟩ := by intro f; simp [expire, h]
  cases c with
  | fails x a msg =>
    simp only [Spec.step] at hs
    split at hs <;> cases hs
    rename_i ha
    exact hput (hex _) ha
  | succeeds x =>
    simp only [Spec.step] at hs
    split at hs <;> cases hs
    exact hex _
  | destroy x =>
    simp only [Spec.step] at hs
    split at hs <;> cases hs
    exact hex _
  | destroyExc a => exact quiet_step (c := .destroyExc a) q h hs
  | openFile x ns => exact quiet_step (c := .openFile x ns) trivial h hs
  | openFails a msg => exact quiet_step (c := .openFails a msg) trivial h hs
  | failsOwn x a msg => exact quiet_step (c := .failsOwn x a msg) trivial h hs
  | children x c => exact quiet_step (c := .children x c) trivial h hs
  | what a => exact quiet_step (c := .what a) trivial h hs
  | names c => exact quiet_step (c := .names c) trivial h hs
  | copyExc a b => exact quiet_step (c := .copyExc a b) trivial h hs
  | moveCtor x y => exact quiet_step (c := .moveCtor x y) trivial h hs
  | moveAssign x y => exact quiet_step (c := .moveAssign x y) trivial h hs
  | destroyList c => exact quiet_step (c := .destroyList c) trivial h hs

theorem own_run {e : Nat} (cs : List Cmd) (q : ∀ c ∈ cs, Keeps e c) {S S' : Spec} {o : List (List Bytes)} {t : List Bytes}
    (h : S.exc e = some ⟨t, none, true⟩) (hs : Spec.run cs S = .ok (S', o)) : S'.exc e = some ⟨t, none, true⟩ := by
  induction cs generalizing S o with
  | nil => cases hs; exact h
  | cons c cs ih =>
    rw [Spec.run] at hs
    cases h1 : S.step c with
    | ok a =>
      obtain ⟨S1, o1⟩ := a
      rw [h1] at hs
      simp only [Res.bind_ok] at hs
      cases h2 : Spec.run cs S1 with
      | ok b =>
        obtain ⟨S2, o2⟩ := b
        rw [h2] at hs
        cases hs
        exact ih (fun c hc => q c (by simp [hc])) (own_step (q c (by simp)) h h1) h2
      | err => rw [h2] at hs; cases hs
      | ub => rw [h2] at hs; cases hs
      | abort => rw [h2] at hs; cases hs
    | err => rw [h1] at hs; cases hs
    | ub => rw [h1] at hs; cases hs
    | abort => rw [h1] at hs; cases hs

/-- C76: the message of a file that could not be opened can be looked at as long as the exception exists, whatever the program
does with other files in the meantime. -/
theorem c76_open_message (cs ds : List Cmd) (e : Nat) (msg : Bytes) (q : ∀ c ∈ ds, Keeps e c) {s : State} {o : List (List Bytes)}
    (h : State.run (cs ++ .openFails e msg :: ds) State.init = .ok (s, o)) : s.step (.what e) = .ok (s, [[msg]]) := by
  rw [run_snoc] at h
  cases h1 : State.run cs State.init with
  | ok a =>
    obtain ⟨s1, o1⟩ := a
    rw [h1] at h
    simp only [Res.bind_ok, State.run] at h
    obtain ⟨S1, O1, _, r1⟩ := Rel.init.run h1
    cases h2 : s1.step (.openFails e msg) with
    | ok b =>
      obtain ⟨s2, o2⟩ := b
      rw [h2] at h
      simp only [Res.bind_ok] at h
      obtain ⟨S2, O2, k2, r2⟩ := r1.step h2
      cases h3 : State.run ds s2 with
      | ok d =>
        obtain ⟨s3, o3⟩ := d
        rw [h3] at h
        cases h
        obtain ⟨S3, O3, k3, r3⟩ := r2.run h3
        have hexc : S2.exc e = some ⟨[msg], none, true⟩ := by
          simp only [Spec.step] at k2
          split at k2 <;> cases k2
          simp [put]
        have := own_run ds q hexc k3
        cases he : s3.exc e with
        | none => rw [r3.note_none he] at this; cases this
        | some E =>
          obtain ⟨n, hn, hok⟩ := r3.note_of he
          rw [this] at hn
          cases hn
          simp only [State.step, he, hok.look, Note.look, if_true, Res.bind_ok]
      | err => rw [h3] at h; cases h
      | ub => rw [h3] at h; cases h
      | abort => rw [h3] at h; cases h
    | err => rw [h2] at h; cases h
    | ub => rw [h2] at h; cases h
    | abort => rw [h2] at h; cases h
  | err => rw [h1] at h; cases h
  | ub => rw [h1] at h; cases h
  | abort => rw [h1] at h; cases h

-- Not vacuous (tests): two files, a failing call, a moved file, a copy of the exception that survives the file, names.
example : seen (State.run [.openFile 0 [[97], [98]], .openFile 1 [], .fails 0 5 [1, 2], .moveCtor 2 0, .what 5, .copyExc 6 5,
    .children 2 9, .succeeds 1, .names 9, .succeeds 2, .names 9, .what 6, .destroy 2, .what 6] State.init) =
    .ok [[[1, 2]], [[97], [98]], [[97], [98]], [[1, 2]], [[1, 2]]] := by decide +kernel
example : seen (State.run [.openFile 0 [[97], [98]], .children 0 9, .destroy 0, .names 9] State.init) = .ub := by decide +kernel
example : seen (State.run [.openFile 0 [[97]], .openFile 1 [[98]], .children 1 9, .fails 0 5 [1], .destroy 0] State.init) = .ok [] := by
  decide +kernel
example : seen (State.run [.openFile 0 [[97]], .fails 0 5 [1], .succeeds 0] State.init) = .ok [] := by decide +kernel
example : seen (State.run [.openFails 3 [7], .openFile 0 [[97]], .fails 0 5 [1], .destroy 0, .what 3] State.init) = .ok [[[7]]] := by
  decide +kernel

end Dyna.Handle
