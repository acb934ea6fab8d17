import Verif.CppPart
/-!
# Copies of `D3plotPart` (C74)
-/

namespace Dyna.Part

/-! ## Specification: parts as values -/

/-- Specification: the ids and indices of a part. -/
abbrev Val := Field → List Nat

/-- Specification: the parts of a program by name. -/
abbrev Vals := Nat → Option Val

/-- Specification: replace a value. -/
def Vals.put (V : Vals) (x : Nat) (v : Option Val) : Vals := fun y => if y = x then v else V y

/-- Specification: a part that has been moved away is empty. -/
def emptyVal : Val := fun _ => []

/-- Specification: what a command means if parts are values; `none` if an object is used outside of its lifetime. -/
def spec (V : Vals) : Cmd → Option Vals
  | .read x data => match V x with
    | none => some (V.put x (some fun
        | .ids k => (data k).map Prod.fst
        | .indices k => (data k).map Prod.snd))
    | some _ => none
  | .copyCtor x y => match V x, V y with
    | none, some v => some (V.put x (some v))
    | _, _ => none
  | .moveCtor x y => match V x, V y with
    | none, some v => some ((V.put x (some v)).put y (some emptyVal))
    | _, _ => none
  | .copyAssign x y => match V x, V y with
    | some _, some v => some (V.put x (some v))
    | _, _ => none
  | .moveAssign x y => match V x, V y with
    | some _, some v => some ((V.put x (some v)).put y (some emptyVal))
    | _, _ => none
  | .destroy x => match V x with
    | some _ => some (V.put x none)
    | none => none

/-- Specification: the command does not copy a part with thick shells, nor a part to itself. -/
def Allowed (V : Vals) : Cmd → Prop
  | .copyCtor _ y => ∀ v, V y = some v → v (.ids .thick) = [] ∧ v (.indices .thick) = []
  | .copyAssign x y => x ≠ y ∧ ∀ v, V y = some v → v (.ids .thick) = [] ∧ v (.indices .thick) = []
  | _ => True

/-- Specification: a program that uses objects in their lifetime and copies no part with thick shells, from values to values. -/
inductive Runs : Vals → List Cmd → Vals → Prop
  | nil {V} : Runs V [] V
  | cons {V V1 V2 c cs} : spec V c = some V1 → Allowed V c → Runs V1 cs V2 → Runs V (c :: cs) V2

/-! ## Lemmas about sequences of malloc, memcpy and free -/

theorem append_same {α : Type} (h : List α) (b : α) {p : Nat} (hp : p < h.length) : (h ++ [b])[p]? = h[p]? :=
  List.getElem?_append_left hp

theorem append_new {α : Type} (h : List α) (b : α) : (h ++ [b])[h.length]? = some b := by
  simp

theorem allocAll_spec (num : Kind → Nat) : ∀ (fs : List Field) (h : Heap) (ptr : Field → Option Nat) (h' : Heap)
    (ptr' : Field → Option Nat), allocAll num fs h ptr = (h', ptr') →
    (∀ p, p < h.length → h'[p]? = h[p]?) ∧ h.length ≤ h'.length ∧ (∀ f, f ∉ fs → ptr' f = ptr f) ∧
    (∀ f, f ∈ fs → ∃ p, ptr' f = some p ∧ h.length ≤ p ∧ h'[p]? = some ⟨true, List.replicate (num f.kind) none⟩) ∧
    (∀ f g, f ∈ fs → g ∈ fs → ptr' f = ptr' g → f = g) := by
  intro fs
  induction fs with
  | nil =>
    intro h ptr h' ptr' e
    cases e
    exact ⟨fun _ _ => rfl, Nat.le_refl _, fun _ _ => rfl, fun f hf => by simp at hf, fun f g hf => by simp at hf⟩
  | cons f fs ih =>
    intro h ptr h' ptr' e
    rw [allocAll] at e
    obtain ⟨i1, i2, i3, i4, i5⟩ := ih _ _ _ _ e
    simp only [List.length_append, List.length_cons, List.length_nil, Nat.zero_add] at i1 i2 i4
    have hf : f ∉ fs → ptr' f = some h.length ∧ h'[h.length]? = some ⟨true, List.replicate (num f.kind) none⟩ := by
      intro hn
      refine ⟨by rw [i3 f hn]; simp [setPtr], ?_⟩
      rw [i1 h.length (by omega), append_new]
    have hall : ∀ g, g ∈ f :: fs → ∃ p, ptr' g = some p ∧ h.length ≤ p ∧ h'[p]? = some ⟨true, List.replicate (num g.kind) none⟩ := by
      intro g hg
      by_cases hgf : g ∈ fs
      · obtain ⟨p, p1, p2, p3⟩ := i4 g hgf
        exact ⟨p, p1, by omega, p3⟩
      · have : g = f := by
          rcases List.mem_cons.1 hg with h | h
          · exact h
          · exact absurd h hgf
        subst this
        obtain ⟨a1, a2⟩ := hf hgf
        exact ⟨_, a1, Nat.le_refl _, a2⟩
    refine ⟨fun p hp => ?_, by omega, fun g hg => ?_, hall, fun g g' hg hg' ee => ?_⟩
    · rw [i1 p (by omega), append_same _ _ hp]
    · simp only [List.mem_cons, not_or] at hg
      rw [i3 g hg.2]
      simp [setPtr, hg.1]
    · have key : ∀ a, a ∈ f :: fs → a ∉ fs → a = f := by
        intro a ha hn
        rcases List.mem_cons.1 ha with h | h
        · exact h
        · exact absurd h hn
      by_cases h1 : g ∈ fs
      · by_cases h2 : g' ∈ fs
        · exact i5 g g' h1 h2 ee
        · have := key g' hg' h2
          subst this
          obtain ⟨a1, _⟩ := hf h2
          obtain ⟨p, p1, p2, _⟩ := i4 g h1
          rw [p1, a1] at ee
          cases ee
          omega
      · have := key g hg h1
        subst this
        by_cases h2 : g' ∈ fs
        · obtain ⟨a1, _⟩ := hf h1
          obtain ⟨p, p1, p2, _⟩ := i4 g' h2
          rw [p1, a1] at ee
          cases ee
          omega
        · exact (key g' hg' h2).symm

theorem readAll_spec (data : Field → List Nat) : ∀ (fs : List Field) (h : Heap) (ptr : Field → Option Nat) (h' : Heap)
    (ptr' : Field → Option Nat), fs.Nodup → readAll data fs h ptr = (h', ptr') →
    (∀ p, p < h.length → h'[p]? = h[p]?) ∧ h.length ≤ h'.length ∧ (∀ f, f ∉ fs ∨ data f = [] → ptr' f = ptr f) ∧
    (∀ f, f ∈ fs → data f ≠ [] → ∃ p, ptr' f = some p ∧ h.length ≤ p ∧ h'[p]? = some ⟨true, (data f).map some⟩) ∧
    (∀ f g, f ∈ fs → data f ≠ [] → g ∈ fs → data g ≠ [] → ptr' f = ptr' g → f = g) := by
  intro fs
  induction fs with
  | nil =>
    intro h ptr h' ptr' _ e
    cases e
    exact ⟨fun _ _ => rfl, Nat.le_refl _, fun _ _ => rfl, fun f hf => by simp at hf, fun f g hf => by simp at hf⟩
  | cons f fs ih =>
    intro h ptr h' ptr' hnd e
    rw [List.nodup_cons] at hnd
    rw [readAll] at e
    by_cases hd : data f = []
    · rw [if_pos hd] at e
      obtain ⟨i1, i2, i3, i4, i5⟩ := ih _ _ _ _ hnd.2 e
      refine ⟨i1, i2, fun g hg => i3 g ?_, fun g hg hne => i4 g ?_ hne, fun g g' hg hgn hg' hgn' e => i5 g g' ?_ hgn ?_ hgn' e⟩
      · rcases hg with hg | hg
        · exact .inl (fun hx => hg (by simp [hx]))
        · exact .inr hg
      · rcases List.mem_cons.1 hg with h | h
        · subst h; exact absurd hd hne
        · exact h
      · rcases List.mem_cons.1 hg with h | h
        · subst h; exact absurd hd hgn
        · exact h
      · rcases List.mem_cons.1 hg' with h | h
        · subst h; exact absurd hd hgn'
        · exact h
    · rw [if_neg hd] at e
      obtain ⟨i1, i2, i3, i4, i5⟩ := ih _ _ _ _ hnd.2 e
      simp only [List.length_append, List.length_cons, List.length_nil, Nat.zero_add] at i1 i2 i4
      have a1 : ptr' f = some h.length := by rw [i3 f (.inl hnd.1)]; simp [setPtr]
      have a2 : h'[h.length]? = some ⟨true, (data f).map some⟩ := by rw [i1 h.length (by omega), append_new]
      refine ⟨fun p hp => ?_, by omega, fun g hg => ?_, fun g hg hne => ?_, fun g g' hg hgn hg' hgn' ee => ?_⟩
      · rw [i1 p (by omega), append_same _ _ hp]
      · have hgf : g ≠ f := by
          rintro rfl
          rcases hg with hg | hg
          · exact hg (by simp)
          · exact hd hg
        rw [i3 g (by rcases hg with hg | hg; exact .inl (fun hx => hg (by simp [hx])); exact .inr hg)]
        simp [setPtr, hgf]
      · rcases List.mem_cons.1 hg with h | h
        · subst h; exact ⟨_, a1, Nat.le_refl _, a2⟩
        · obtain ⟨p, p1, p2, p3⟩ := i4 g h hne
          exact ⟨p, p1, by omega, p3⟩
      · rcases List.mem_cons.1 hg with h1 | h1
        · rcases List.mem_cons.1 hg' with h2 | h2
          · rw [h1, h2]
          · subst h1
            obtain ⟨p, p1, p2, _⟩ := i4 g' h2 hgn'
            rw [p1, a1] at ee
            cases ee
            omega
        · rcases List.mem_cons.1 hg' with h2 | h2
          · subst h2
            obtain ⟨p, p1, p2, _⟩ := i4 g h1 hgn
            rw [p1, a1] at ee
            cases ee
            omega
          · exact i5 g g' h1 hgn h2 hgn' ee

theorem load_full {h : Heap} {p : Nat} {l : List (Option Nat)} {n : Nat} (hn : n = l.length) (hp : h[p]? = some ⟨true, l⟩) :
    load h (some p) n = .ok l := by
  subst hn
  unfold load
  by_cases hl : l.length = 0
  · rw [if_pos hl, List.eq_nil_of_length_eq_zero hl]
  · rw [if_neg hl]
    simp [hp]

theorem store_full {h : Heap} {p : Nat} {l new : List (Option Nat)} (hn : new.length = l.length) (hp : h[p]? = some ⟨true, l⟩) :
    store h (some p) new = .ok (h.set p ⟨true, new⟩) := by
  unfold store
  simp [hp, hn]

/-- A sequence of `memcpy`: `n0` separates the old blocks from the new ones. -/
theorem copyAll_spec (num : Kind → Nat) (src dst : Field → Option Nat) (v : Val) (n0 : Nat) (hnum : ∀ f, num f.kind = (v f).length) :
    ∀ (fs : List Field) (h : Heap), fs.Nodup →
    (∀ f, f ∈ fs → v f ≠ [] → ∃ p, src f = some p ∧ p < n0 ∧ h[p]? = some ⟨true, (v f).map some⟩) →
    (∀ f, f ∈ fs → v f ≠ [] → src f = dst f ∨
      ∃ p, dst f = some p ∧ n0 ≤ p ∧ h[p]? = some ⟨true, List.replicate (num f.kind) none⟩) →
    (∀ f g, f ∈ fs → g ∈ fs → dst f = dst g → f = g) →
    ∃ h', copyAll num src dst fs h = .ok h' ∧ h'.length = h.length ∧ (∀ p, p < n0 → h'[p]? = h[p]?) ∧
      (∀ f, f ∈ fs → v f ≠ [] → ∃ p, dst f = some p ∧ h'[p]? = some ⟨true, (v f).map some⟩) ∧
      (∀ p, (∀ f, f ∈ fs → dst f ≠ some p) → h'[p]? = h[p]?) ∧
      (∀ p, (∀ f, f ∈ fs → v f ≠ [] → dst f ≠ some p) → h'[p]? = h[p]?) := by
  intro fs
  induction fs with
  | nil =>
    intro h _ _ _ _
    exact ⟨h, rfl, rfl, fun _ _ => rfl, fun f hf => by simp at hf, fun _ _ => rfl, fun _ _ => rfl⟩
  | cons f fs ih =>
    intro h hnd hsrc hdst hinj
    rw [List.nodup_cons] at hnd
    rw [copyAll]
    by_cases hv : v f = []
    · rw [if_pos (by rw [hnum, hv]; rfl)]
      obtain ⟨h', j1, j2, j3, j4, j5, j6⟩ := ih h hnd.2 (fun g hg => hsrc g (by simp [hg])) (fun g hg => hdst g (by simp [hg]))
        (fun g g' hg hg' => hinj g g' (by simp [hg]) (by simp [hg']))
      refine ⟨h', j1, j2, j3, fun g hg hne => ?_, fun p hp => j5 p fun g hg => hp g (by simp [hg]),
        fun p hp => j6 p fun g hg => hp g (by simp [hg])⟩
      rcases List.mem_cons.1 hg with e | e
      · subst e; exact absurd hv hne
      · exact j4 g e hne
    · rw [if_neg (by rw [hnum]; intro h0; exact hv (List.eq_nil_of_length_eq_zero h0))]
      obtain ⟨p, p1, p2, p3⟩ := hsrc f (by simp) hv
      rw [p1, load_full (by rw [hnum]; simp) p3]
      simp only [Res.bind_ok]
      -- the heap behind this `memcpy`
      have hq : ∃ q, dst f = some q ∧ store h (some q) ((v f).map some) = .ok (h.set q ⟨true, (v f).map some⟩) ∧ q < h.length ∧
          (n0 ≤ q ∨ q = p) := by
        rcases hdst f (by simp) hv with e | ⟨q, q1, q2, q3⟩
        · refine ⟨p, by rw [← e, p1], store_full (by simp) p3, ?_, .inr rfl⟩
          exact (List.getElem?_eq_some_iff.1 p3).1
        · exact ⟨q, q1, store_full (by simp [hnum]) q3, (List.getElem?_eq_some_iff.1 q3).1, .inl q2⟩
      obtain ⟨q, q1, q2, q3, q4⟩ := hq
      rw [q1, q2]
      simp only [Res.bind_ok]
      have hold : ∀ r, r < n0 → (h.set q ⟨true, (v f).map some⟩)[r]? = h[r]? := by
        intro r hr
        by_cases e : q = r
        · subst e
          rcases q4 with q4 | q4
          · omega
          · subst q4
            rw [List.getElem?_set_self q3, p3]
        · rw [List.getElem?_set_ne e]
      obtain ⟨h', j1, j2, j3, j4, j5, j6⟩ := ih (h.set q ⟨true, (v f).map some⟩) hnd.2
        (fun g hg hne => by
          obtain ⟨r, r1, r2, r3⟩ := hsrc g (by simp [hg]) hne
          exact ⟨r, r1, r2, by rw [hold r r2]; exact r3⟩)
        (fun g hg hne => by
          rcases hdst g (by simp [hg]) hne with e | ⟨r, r1, r2, r3⟩
          · exact .inl e
          · refine .inr ⟨r, r1, r2, ?_⟩
            rw [List.getElem?_set_ne, r3]
            rintro rfl
            have := hinj f g (by simp) (by simp [hg]) (by rw [q1, r1])
            subst this
            exact hnd.1 hg)
        (fun g g' hg hg' => hinj g g' (by simp [hg]) (by simp [hg']))
      have hqf : h'[q]? = some ⟨true, (v f).map some⟩ := by
        rw [j5 q (fun g hg e => ?_), List.getElem?_set_self q3]
        have := hinj f g (by simp) (by simp [hg]) (by rw [q1, e])
        subst this
        exact hnd.1 hg
      refine ⟨h', j1, by rw [j2, List.length_set], fun r hr => by rw [j3 r hr, hold r hr], fun g hg hne => ?_, fun r hr => ?_, fun r hr => ?_⟩
      · rcases List.mem_cons.1 hg with e | e
        · subst e; exact ⟨q, q1, hqf⟩
        · exact j4 g e hne
      · rw [j5 r (fun g hg => hr g (by simp [hg])), List.getElem?_set_ne]
        rintro rfl
        exact hr f (by simp) q1
      · rw [j6 r (fun g hg => hr g (by simp [hg])), List.getElem?_set_ne]
        rintro rfl
        exact hr f (by simp) hv q1

/-- A sequence of `free` of different live blocks. -/
theorem freeAll_spec (ptr : Field → Option Nat) : ∀ (fs : List Field) (h : Heap), fs.Nodup →
    (∀ f p, f ∈ fs → ptr f = some p → ∃ cells, h[p]? = some ⟨true, cells⟩) →
    (∀ f g p, f ∈ fs → g ∈ fs → ptr f = some p → ptr g = some p → f = g) →
    ∃ h', freeAll ptr fs h = .ok h' ∧ h'.length = h.length ∧
      (∀ p, (∀ f, f ∈ fs → ptr f ≠ some p) → h'[p]? = h[p]?) ∧
      (∀ f p, f ∈ fs → ptr f = some p → ∃ cells, h'[p]? = some ⟨false, cells⟩) := by
  intro fs
  induction fs with
  | nil => intro h _ _ _; exact ⟨h, rfl, rfl, fun _ _ => rfl, fun f p hf => by simp at hf⟩
  | cons f fs ih =>
    intro h hnd hlive hinj
    rw [List.nodup_cons] at hnd
    rw [freeAll]
    cases hp : ptr f with
    | none =>
      obtain ⟨h', j1, j2, j3, j4⟩ := ih h hnd.2 (fun g p hg => hlive g p (by simp [hg]))
        (fun g g' p hg hg' => hinj g g' p (by simp [hg]) (by simp [hg']))
      refine ⟨h', j1, j2, fun p hq => j3 p fun g hg => hq g (by simp [hg]), fun g p hg hq => ?_⟩
      rcases List.mem_cons.1 hg with e | e
      · subst e; rw [hp] at hq; cases hq
      · exact j4 g p e hq
    | some p =>
      obtain ⟨cells, hc⟩ := hlive f p (by simp) hp
      have hlt := (List.getElem?_eq_some_iff.1 hc).1
      unfold free
      simp only [hc]
      have hne : ∀ g, g ∈ fs → ptr g ≠ some p := by
        intro g hg e
        have := hinj f g p (by simp) (by simp [hg]) hp e
        subst this
        exact hnd.1 hg
      obtain ⟨h', j1, j2, j3, j4⟩ := ih (h.set p ⟨false, cells⟩) hnd.2
        (fun g q hg hq => by
          obtain ⟨c', hc'⟩ := hlive g q (by simp [hg]) hq
          refine ⟨c', ?_⟩
          rw [List.getElem?_set_ne, hc']
          rintro rfl
          exact hne g hg hq)
        (fun g g' q hg hg' => hinj g g' q (by simp [hg]) (by simp [hg']))
      refine ⟨h', j1, by rw [j2, List.length_set], fun q hq => ?_, fun g q hg hq => ?_⟩
      · rw [j3 q (fun g hg => hq g (by simp [hg])), List.getElem?_set_ne]
        rintro rfl
        exact hq f (by simp) hp
      · rcases List.mem_cons.1 hg with e | e
        · subst e
          rw [hp] at hq
          cases hq
          exact ⟨cells, by rw [j3 p hne, List.getElem?_set_self hlt]⟩
        · exact j4 g q e hq

/-! ## The invariant -/

/-- An object that holds a value. -/
structure Holds (h : Heap) (o : Obj) (v : Val) : Prop where
  num : ∀ f, o.num f.kind = (v f).length
  val : ∀ f, v f ≠ [] → ∃ p, o.ptr f = some p ∧ h[p]? = some ⟨true, (v f).map some⟩
  live : ∀ f p, o.ptr f = some p → ∃ cells, h[p]? = some ⟨true, cells⟩
  thick : v (.indices .thick) = [] → o.ptr (.indices .thick) = none

/-- Every object holds its value, and no two pointers are the same. -/
structure Rel (s : State) (V : Vals) : Prop where
  dead : ∀ x, s.objs x = none ↔ V x = none
  good : ∀ x o v, s.objs x = some o → V x = some v → Holds s.heap o v
  inj : ∀ x y o o' f g p, s.objs x = some o → s.objs y = some o' → o.ptr f = some p → o'.ptr g = some p → x = y ∧ f = g

theorem Rel.obj {s : State} {V : Vals} (r : Rel s V) {x : Nat} {v : Val} (h : V x = some v) :
    ∃ o, s.objs x = some o ∧ Holds s.heap o v := by
  cases ho : s.objs x with
  | none => rw [(r.dead x).1 ho] at h; cases h
  | some o => exact ⟨o, rfl, r.good x o v ho h⟩

theorem Rel.absent {s : State} {V : Vals} (r : Rel s V) {x : Nat} (h : V x = none) : s.objs x = none := (r.dead x).2 h

theorem Rel.lt {s : State} {V : Vals} (r : Rel s V) {x p : Nat} {o : Obj} {f : Field} (h : s.objs x = some o)
    (hp : o.ptr f = some p) : p < s.heap.length := by
  cases hv : V x with
  | none => rw [(r.dead x).2 hv] at h; cases h
  | some v =>
    obtain ⟨c, hc⟩ := (r.good x o v h hv).live f p hp
    exact (List.getElem?_eq_some_iff.1 hc).1

theorem Holds.frame {h h' : Heap} {o : Obj} {v : Val} (g : Holds h o v)
    (e : ∀ f p, o.ptr f = some p → h'[p]? = h[p]?) : Holds h' o v := by
  refine ⟨g.num, fun f hf => ?_, fun f p hp => ?_, g.thick⟩
  · obtain ⟨p, p1, p2⟩ := g.val f hf
    exact ⟨p, p1, by rw [e f p p1]; exact p2⟩
  · obtain ⟨c, hc⟩ := g.live f p hp
    exact ⟨c, by rw [e f p hp]; exact hc⟩

theorem mem_copyOrder (f : Field) : f ∈ copyOrder := by
  cases f with
  | ids k => cases k <;> decide
  | indices k => cases k <;> decide

theorem mem_freeOrder (f : Field) : f ∈ freeOrder := by
  cases f with
  | ids k => cases k <;> decide
  | indices k => cases k <;> decide

theorem mem_allocOrder (f : Field) (h : f ≠ .indices .thick) : f ∈ allocOrder := by
  cases f with
  | ids k => cases k <;> decide
  | indices k => cases k <;> first | decide | exact absurd rfl h

/-- What copying does, for every part. -/
theorem copyTo_spec {s : State} (x : Nat) {o : Obj} {v : Val} (g : Holds s.heap o v) :
    ∃ h ptr, s.copyTo x o false = .ok (State.put ⟨h, s.objs⟩ x (some ⟨ptr, o.num⟩)) ∧
      (∀ p, p < s.heap.length → h[p]? = s.heap[p]?) ∧ s.heap.length ≤ h.length ∧
      ptr (.indices .thick) = o.ptr (.indices .thick) ∧
      (∀ f, f ≠ .indices .thick → ∃ p cells, ptr f = some p ∧ s.heap.length ≤ p ∧ h[p]? = some ⟨true, cells⟩ ∧
        (v f ≠ [] → cells = (v f).map some)) ∧
      (∀ f f', f ≠ .indices .thick → f' ≠ .indices .thick → ptr f = ptr f' → f = f') ∧
      (∃ cells, h[s.heap.length + 1]? = some ⟨true, cells⟩) ∧ (∀ f, ptr f ≠ some (s.heap.length + 1)) := by
  have hlt : ∀ f p, o.ptr f = some p → p < s.heap.length := by
    intro f p hp
    obtain ⟨c, hc⟩ := g.live f p hp
    exact (List.getElem?_eq_some_iff.1 hc).1
  cases ha : allocAll o.num allocOrder s.heap o.ptr with
  | mk h1 ptr =>
    obtain ⟨a1, a2, a3, a4, a5⟩ := allocAll_spec o.num allocOrder s.heap o.ptr h1 ptr ha
    have hthick : ptr (.indices .thick) = o.ptr (.indices .thick) := a3 _ (by decide)
    have hlost : (∃ cells, h1[s.heap.length + 1]? = some ⟨true, cells⟩) ∧ ∀ f, ptr f ≠ some (s.heap.length + 1) := by
      have e1 : ∀ f, ptr f = (allocAll o.num allocOrder s.heap o.ptr).2 f := by intro f; rw [ha]
      have e2 : h1 = (allocAll o.num allocOrder s.heap o.ptr).1 := by rw [ha]
      constructor
      · rw [e2]
        simp only [allocAll, allocOrder]
        refine ⟨List.replicate (o.num Kind.thick) none, ?_⟩
        simp only [List.append_assoc, List.cons_append, List.nil_append]
        rw [List.getElem?_append_right (by omega)]
        simp [Field.kind]
      · intro f hf
        by_cases hx : f = .indices .thick
        · subst hx
          rw [hthick] at hf
          have := hlt _ _ hf
          omega
        · rw [e1] at hf
          cases f with
          | ids k =>
            cases k <;> simp [allocAll, allocOrder, setPtr] at hf <;> omega
          | indices k =>
            cases k <;> first
              | exact hx rfl
              | (simp [allocAll, allocOrder, setPtr] at hf <;> omega)
    obtain ⟨h, c1, c2, c3, c4, c5, c6⟩ := copyAll_spec o.num o.ptr ptr v s.heap.length g.num copyOrder h1 (by decide)
      (fun f _ hv => by
        obtain ⟨p, p1, p2⟩ := g.val f hv
        exact ⟨p, p1, hlt f p p1, by rw [a1 p (hlt f p p1)]; exact p2⟩)
      (fun f _ hv => by
        by_cases hf : f = .indices .thick
        · subst hf; exact .inl hthick.symm
        · exact .inr (a4 f (mem_allocOrder f hf)))
      (fun f f' _ _ e => by
        by_cases hf : f = .indices .thick
        · by_cases hf' : f' = .indices .thick
          · rw [hf, hf']
          · obtain ⟨p, p1, p2, _⟩ := a4 f' (mem_allocOrder f' hf')
            subst hf
            rw [p1, hthick] at e
            have := hlt _ _ e
            omega
        · by_cases hf' : f' = .indices .thick
          · obtain ⟨p, p1, p2, _⟩ := a4 f (mem_allocOrder f hf)
            subst hf'
            rw [p1, hthick] at e
            have := hlt _ _ e.symm
            omega
          · exact a5 f f' (mem_allocOrder f hf) (mem_allocOrder f' hf') e)
    refine ⟨h, ptr, ?_, fun p hp => by rw [c3 p hp, a1 p hp], by omega, hthick, fun f hf => ?_,
      fun f f' hf hf' => a5 f f' (mem_allocOrder f hf) (mem_allocOrder f' hf'), ?_, hlost.2⟩
    · unfold State.copyTo
      rw [ha]
      simp only [Bool.false_eq_true, if_false]
      rw [c1]
    · obtain ⟨p, p1, p2, p3⟩ := a4 f (mem_allocOrder f hf)
      by_cases hv : v f = []
      · have : ∀ f', f' ∈ copyOrder → v f' ≠ [] → ptr f' ≠ some p := by
          intro f' _ hv' e
          by_cases hf' : f' = .indices .thick
          · subst hf'
            rw [hthick] at e
            have := hlt _ _ e
            omega
          · have := a5 f f' (mem_allocOrder f hf) (mem_allocOrder f' hf') (by rw [p1, e])
            subst this
            exact hv' hv
        exact ⟨p, _, p1, p2, by rw [c6 p this]; exact p3, fun h => absurd hv h⟩
      · obtain ⟨q, q1, q2⟩ := c4 f (mem_copyOrder f) hv
        rw [p1] at q1
        cases q1
        exact ⟨p, _, p1, p2, q2, fun _ => rfl⟩
    · obtain ⟨cells, hc⟩ := hlost.1
      exact ⟨cells, by rw [c5 _ (fun f _ => hlost.2 f)]; exact hc⟩

/-- Replacing an object by one whose pointers are new. -/
theorem Rel.fresh {s : State} {V : Vals} (r : Rel s V) {x : Nat} {h : Heap} {o : Obj} {v : Val}
    (hold : ∀ p, p < s.heap.length → h[p]? = s.heap[p]?) (hg : Holds h o v)
    (hnew : ∀ f p, o.ptr f = some p → s.heap.length ≤ p) (hinj : ∀ f f' p, o.ptr f = some p → o.ptr f' = some p → f = f') :
    Rel (State.put ⟨h, s.objs⟩ x (some o)) (V.put x (some v)) := by
  refine ⟨fun y => ?_, fun y o' v' h1 h2 => ?_, fun y z o1 o2 f g p h1 h2 p1 p2 => ?_⟩
  · simp only [State.put, Vals.put]
    by_cases hy : y = x
    · simp [hy]
    · simp only [hy, if_false]; exact r.dead y
  · simp only [State.put, Vals.put] at h1 h2 ⊢
    by_cases hy : y = x
    · simp only [hy, if_true, Option.some.injEq] at h1 h2
      subst h1 h2
      exact hg
    · simp only [hy, if_false] at h1 h2
      exact (r.good y o' v' h1 h2).frame fun f p hp => hold p (r.lt h1 hp)
  · simp only [State.put] at h1 h2
    by_cases hy : y = x
    · by_cases hz : z = x
      · simp only [hy, hz, if_true, Option.some.injEq] at h1 h2
        subst h1 h2
        exact ⟨by rw [hy, hz], hinj f g p p1 p2⟩
      · simp only [hy, hz, if_true, if_false, Option.some.injEq] at h1 h2
        subst h1
        have := hnew f p p1
        have := r.lt h2 p2
        omega
    · by_cases hz : z = x
      · simp only [hy, hz, if_true, if_false, Option.some.injEq] at h1 h2
        subst h2
        have := hnew g p p2
        have := r.lt h1 p1
        omega
      · simp only [hy, hz, if_false] at h1 h2
        exact r.inj y z o1 o2 f g p h1 h2 p1 p2

theorem Rel.copy {s : State} {V : Vals} (r : Rel s V) (x y : Nat) {o : Obj} {v : Val} (ho : s.objs y = some o)
    (hv : V y = some v) (ht : v (.indices .thick) = []) :
    ∃ s', s.copyTo x o false = .ok s' ∧ Rel s' (V.put x (some v)) := by
  have g := r.good y o v ho hv
  obtain ⟨h, ptr, e1, e2, e3, e4, e5, e6, -, -⟩ := copyTo_spec (s := s) x g
  refine ⟨_, e1, r.fresh e2 ⟨g.num, fun f hf => ?_, fun f p hp => ?_, fun _ => ?_⟩ (fun f p hp => ?_) (fun f f' p hp hp' => ?_)⟩
  · by_cases hx : f = .indices .thick
    · subst hx; exact absurd ht hf
    · obtain ⟨p, c, p1, p2, p3, p4⟩ := e5 f hx
      exact ⟨p, p1, by rw [p3, p4 hf]⟩
  · by_cases hx : f = .indices .thick
    · subst hx
      rw [show (⟨ptr, o.num⟩ : Obj).ptr (.indices .thick) = ptr (.indices .thick) from rfl, e4, g.thick ht] at hp
      cases hp
    · obtain ⟨q, c, p1, p2, p3, p4⟩ := e5 f hx
      rw [show (⟨ptr, o.num⟩ : Obj).ptr f = ptr f from rfl, p1] at hp
      cases hp
      exact ⟨c, p3⟩
  · show ptr (.indices .thick) = none
    rw [e4, g.thick ht]
  · by_cases hx : f = .indices .thick
    · subst hx
      rw [show (⟨ptr, o.num⟩ : Obj).ptr (.indices .thick) = ptr (.indices .thick) from rfl, e4, g.thick ht] at hp
      cases hp
    · obtain ⟨q, c, p1, p2, p3, p4⟩ := e5 f hx
      rw [show (⟨ptr, o.num⟩ : Obj).ptr f = ptr f from rfl, p1] at hp
      cases hp
      exact p2
  · have hn : ∀ f p, (⟨ptr, o.num⟩ : Obj).ptr f = some p → f ≠ .indices .thick := by
      rintro f p hp rfl
      rw [show (⟨ptr, o.num⟩ : Obj).ptr (.indices .thick) = ptr (.indices .thick) from rfl, e4, g.thick ht] at hp
      cases hp
    exact e6 f f' (hn f p hp) (hn f' p hp') (hp.trans hp'.symm)

theorem holds_zero (h : Heap) : Holds h Obj.zero emptyVal :=
  ⟨fun _ => rfl, fun f hf => absurd rfl hf, fun f p hp => (nomatch hp), fun _ => rfl⟩

theorem Rel.move {s : State} {V : Vals} (r : Rel s V) (x y : Nat) {o : Obj} {v : Val} (ho : s.objs y = some o)
    (hv : V y = some v) : Rel (s.moveTo x y o) ((V.put x (some v)).put y (some emptyVal)) := by
  have g := r.good y o v ho hv
  refine ⟨fun z => ?_, fun z o' v' h1 h2 => ?_, fun a b o1 o2 f f' p h1 h2 p1 p2 => ?_⟩
  · simp only [State.moveTo, State.put, Vals.put]
    by_cases hz : z = y
    · simp [hz]
    · by_cases hx : z = x
      · simp only [if_neg hz, if_pos hx]
        exact ⟨fun h => (nomatch h), fun h => (nomatch h)⟩
      · simp only [hz, hx, if_false]; exact r.dead z
  · simp only [State.moveTo, State.put, Vals.put] at h1 h2 ⊢
    by_cases hz : z = y
    · simp only [hz, if_true, Option.some.injEq] at h1 h2
      subst h1 h2
      exact holds_zero _
    · by_cases hx : z = x
      · simp only [hz, if_false, if_pos hx, Option.some.injEq] at h1 h2
        subst h1 h2
        exact g
      · simp only [hz, hx, if_false] at h1 h2
        exact r.good z o' v' h1 h2
  · have key : ∀ z oz fz, (s.moveTo x y o).objs z = some oz → oz.ptr fz = some p →
        z ≠ y ∧ ((z = x ∧ oz = o) ∨ (z ≠ x ∧ s.objs z = some oz)) := by
      intro z oz fz hz hp
      simp only [State.moveTo, State.put] at hz
      by_cases hzy : z = y
      · simp only [hzy, if_true, Option.some.injEq] at hz
        subst hz
        cases hp
      · refine ⟨hzy, ?_⟩
        by_cases hzx : z = x
        · simp only [hzy, if_false, if_pos hzx, Option.some.injEq] at hz
          exact .inl ⟨hzx, hz.symm⟩
        · simp only [hzy, hzx, if_false] at hz
          exact .inr ⟨hzx, hz⟩
    obtain ⟨a1, a2⟩ := key a o1 f h1 p1
    obtain ⟨b1, b2⟩ := key b o2 f' h2 p2
    rcases a2 with ⟨ax, rfl⟩ | ⟨ax, ao⟩
    · rcases b2 with ⟨bx, rfl⟩ | ⟨bx, bo⟩
      · exact ⟨by rw [ax, bx], (r.inj y y _ _ f f' p ho ho p1 p2).2⟩
      · exact absurd (r.inj y b _ o2 f f' p ho bo p1 p2).1.symm b1
    · rcases b2 with ⟨bx, rfl⟩ | ⟨bx, bo⟩
      · exact absurd (r.inj a y o1 _ f f' p ao ho p1 p2).1 a1
      · exact r.inj a b o1 o2 f f' p ao bo p1 p2

theorem Rel.destroy {s : State} {V : Vals} (r : Rel s V) (x : Nat) {o : Obj} {v : Val} (ho : s.objs x = some o)
    (hv : V x = some v) : ∃ s', s.destroy x o = .ok s' ∧ Rel s' (V.put x none) := by
  have g := r.good x o v ho hv
  obtain ⟨h', f1, f2, f3, f4⟩ := freeAll_spec o.ptr freeOrder s.heap (by decide) (fun f p _ hp => g.live f p hp)
    (fun f f' p _ _ p1 p2 => (r.inj x x o o f f' p ho ho p1 p2).2)
  refine ⟨State.put ⟨h', s.objs⟩ x none, by unfold State.destroy; rw [f1], fun z => ?_, fun z o' v' h1 h2 => ?_,
    fun a b o1 o2 f f' p h1 h2 p1 p2 => ?_⟩
  · simp only [State.put, Vals.put]
    by_cases hz : z = x
    · simp [hz]
    · simp only [hz, if_false]; exact r.dead z
  · simp only [State.put, Vals.put] at h1 h2 ⊢
    by_cases hz : z = x
    · simp only [hz, if_true] at h1
      cases h1
    · simp only [hz, if_false] at h1 h2
      refine (r.good z o' v' h1 h2).frame fun f p hp => f3 p fun f' _ e => ?_
      exact hz (r.inj z x o' o f f' p h1 ho hp e).1
  · simp only [State.put] at h1 h2
    by_cases ha : a = x
    · simp only [ha, if_true] at h1; cases h1
    · by_cases hb : b = x
      · simp only [hb, if_true] at h2; cases h2
      · simp only [ha, hb, if_false] at h1 h2
        exact r.inj a b o1 o2 f f' p h1 h2 p1 p2

theorem Rel.read {s : State} {V : Vals} (r : Rel s V) (x : Nat) (data : Kind → List (Nat × Nat)) {h : Heap} {ptr : Field → Option Nat}
    (e : readAll (column data) freeOrder s.heap (fun _ => none) = (h, ptr)) :
    Rel (State.put ⟨h, s.objs⟩ x (some ⟨ptr, fun k => (data k).length⟩)) (V.put x (some (column data))) := by
  obtain ⟨a1, a2, a3, a4, a5⟩ := readAll_spec (column data) freeOrder s.heap _ h ptr (by decide) e
  have hne : ∀ f p, ptr f = some p → column data f ≠ [] := by
    intro f p hp h0
    rw [a3 f (.inr h0)] at hp
    cases hp
  refine r.fresh a1 ⟨fun f => ?_, fun f hf => ?_, fun f p hp => ?_, fun ht => a3 _ (.inr ht)⟩ (fun f p hp => ?_)
    (fun f f' p hp hp' => a5 f f' (mem_freeOrder f) (hne f p hp) (mem_freeOrder f') (hne f' p hp') (hp.trans hp'.symm))
  · cases f with
    | ids k => simp [Field.kind, column]
    | indices k => simp [Field.kind, column]
  · obtain ⟨p, p1, _, p3⟩ := a4 f (mem_freeOrder f) hf
    exact ⟨p, p1, p3⟩
  · obtain ⟨q, p1, _, p3⟩ := a4 f (mem_freeOrder f) (hne f p hp)
    have hp' : ptr f = some p := hp
    rw [p1] at hp'
    cases hp'
    exact ⟨_, p3⟩
  · obtain ⟨q, p1, p2, _⟩ := a4 f (mem_freeOrder f) (hne f p hp)
    have hp' : ptr f = some p := hp
    rw [p1] at hp'
    cases hp'
    exact p2

theorem step_refines {s : State} {V V' : Vals} (r : Rel s V) (c : Cmd) (hs : spec V c = some V') (ha : Allowed V c) :
    ∃ s', s.step c = .ok s' ∧ Rel s' V' := by
  cases c with
  | read x data =>
    simp only [spec] at hs
    cases hx : V x with
    | some v => rw [hx] at hs; cases hs
    | none =>
      rw [hx] at hs
      cases hs
      simp only [State.step, r.absent hx]
      cases e : readAll (column data) freeOrder s.heap (fun _ => none) with
      | mk h ptr =>
        refine ⟨_, rfl, ?_⟩
        have := r.read x data e
        have hc : column data = (fun | .ids k => (data k).map Prod.fst | .indices k => (data k).map Prod.snd) := by
          funext f; cases f <;> rfl
        rw [hc] at this
        exact this
  | copyCtor x y =>
    simp only [spec] at hs
    cases hx : V x with
    | some v => rw [hx] at hs; cases hs
    | none =>
      cases hy : V y with
      | none => rw [hx, hy] at hs; cases hs
      | some v =>
        rw [hx, hy] at hs
        cases hs
        obtain ⟨o, ho, _⟩ := r.obj hy
        simp only [State.step, r.absent hx, ho]
        exact r.copy x y ho hy (ha v hy).2
  | moveCtor x y =>
    simp only [spec] at hs
    cases hx : V x with
    | some v => rw [hx] at hs; cases hs
    | none =>
      cases hy : V y with
      | none => rw [hx, hy] at hs; cases hs
      | some v =>
        rw [hx, hy] at hs
        cases hs
        obtain ⟨o, ho, _⟩ := r.obj hy
        simp only [State.step, r.absent hx, ho]
        exact ⟨_, rfl, r.move x y ho hy⟩
  | copyAssign x y =>
    simp only [spec] at hs
    cases hx : V x with
    | none => rw [hx] at hs; cases hs
    | some w =>
      cases hy : V y with
      | none => rw [hx, hy] at hs; cases hs
      | some v =>
        rw [hx, hy] at hs
        cases hs
        obtain ⟨o, ho, _⟩ := r.obj hy
        obtain ⟨o', ho', _⟩ := r.obj hx
        simp only [State.step, ho', ho]
        have : (x == y) = false := by simp [ha.1]
        rw [this]
        exact r.copy x y ho hy (ha.2 v hy).2
  | moveAssign x y =>
    simp only [spec] at hs
    cases hx : V x with
    | none => rw [hx] at hs; cases hs
    | some w =>
      cases hy : V y with
      | none => rw [hx, hy] at hs; cases hs
      | some v =>
        rw [hx, hy] at hs
        cases hs
        obtain ⟨o, ho, _⟩ := r.obj hy
        obtain ⟨o', ho', _⟩ := r.obj hx
        simp only [State.step, ho', ho]
        exact ⟨_, rfl, r.move x y ho hy⟩
  | destroy x =>
    simp only [spec] at hs
    cases hx : V x with
    | none => rw [hx] at hs; cases hs
    | some v =>
      rw [hx] at hs
      cases hs
      obtain ⟨o, ho, _⟩ := r.obj hx
      simp only [State.step, ho]
      exact r.destroy x ho hx

theorem run_refines {V V' : Vals} {cs : List Cmd} (h : Runs V cs V') : ∀ {s : State}, Rel s V →
    ∃ s', State.run cs s = .ok s' ∧ Rel s' V' := by
  induction h with
  | nil => intro s r; exact ⟨s, rfl, r⟩
  | cons h1 h2 _ ih =>
    intro s r
    obtain ⟨s1, e1, r1⟩ := step_refines r _ h1 h2
    obtain ⟨s2, e2, r2⟩ := ih r1
    exact ⟨s2, by rw [State.run, e1]; exact e2, r2⟩

theorem Rel.init : Rel State.init (fun _ => none) :=
  ⟨fun _ => ⟨fun _ => rfl, fun _ => rfl⟩, fun _ _ _ h => (nomatch h), fun _ _ _ _ _ _ _ h => (nomatch h)⟩

theorem Rel.get {s : State} {V : Vals} (r : Rel s V) {x : Nat} {v : Val} (h : V x = some v) (f : Field) :
    s.get x f = .ok ((v f).map some) := by
  obtain ⟨o, ho, g⟩ := r.obj h
  unfold State.get
  rw [ho]
  simp only
  by_cases hv : v f = []
  · rw [hv, g.num, hv]; rfl
  · obtain ⟨p, p1, p2⟩ := g.val f hv
    rw [p1, load_full (by rw [g.num]; simp) p2]

/-! ## C74 -/

/-- C74: in every program that copies no part with thick shells (and no part to itself) parts behave like values: no memory is freed twice or used
after it has been freed, and the arrays of a part in its lifetime have exactly the ids and indices that were read for it or for the part it
was copied or moved from, whatever happened to that part. Missing to the English property: copies of parts with thick shells (`c74_double_free`), and that all memory is
freed (`c74_copy_leaks`). -/
theorem c74_values_partial (cs : List Cmd) (V : Vals) (h : Runs (fun _ => none) cs V) :
    ∃ s, State.run cs State.init = .ok s ∧ ∀ x,
      (∀ v, V x = some v → ∀ f, s.get x f = .ok ((v f).map some)) ∧ (V x = none → s.objs x = none) := by
  obtain ⟨s, e, r⟩ := run_refines h Rel.init
  exact ⟨s, e, fun x => ⟨fun v hv f => r.get hv f, fun hx => r.absent hx⟩⟩

theorem run_append (cs ds : List Cmd) (s s' : State) (h : State.run cs s = .ok s') :
    State.run (cs ++ ds) s = State.run ds s' := by
  induction cs generalizing s with
  | nil => cases h; rfl
  | cons c cs ih =>
    rw [List.cons_append, State.run]
    rw [State.run] at h
    cases hc : s.step c with
    | ok s1 => rw [hc] at h; exact ih s1 h
    | err => rw [hc] at h; cases h
    | ub => rw [hc] at h; cases h
    | abort => rw [hc] at h; cases h

/-- Freeing a block that has been freed. -/
theorem freeAll_dead (ptr : Field → Option Nat) {f : Field} {p : Nat} : ∀ (fs : List Field) (h : Heap), f ∈ fs → ptr f = some p →
    (∃ cells, h[p]? = some ⟨false, cells⟩) → freeAll ptr fs h = .ub := by
  intro fs
  induction fs with
  | nil => intro h hf; simp at hf
  | cons g fs ih =>
    intro h hf hp hd
    obtain ⟨cells, hd⟩ := hd
    rw [freeAll]
    cases hg : ptr g with
    | none =>
      refine ih h ?_ hp ⟨cells, hd⟩
      rcases List.mem_cons.1 hf with e | e
      · subst e; rw [hp] at hg; cases hg
      · exact e
    | some q =>
      unfold free
      simp only
      by_cases hq : q = p
      · subst hq; rw [hd]
      · cases hb : h[q]? with
        | none => rfl
        | some b =>
          obtain ⟨l, c⟩ := b
          cases l with
          | false => rfl
          | true =>
            refine ih _ ?_ hp ⟨cells, by rw [List.getElem?_set_ne hq]; exact hd⟩
            rcases List.mem_cons.1 hf with e | e
            · subst e; rw [hp] at hg; cases hg; exact absurd rfl hq
            · exact e

/-- C74 is violated by every copy of a part with thick shells: the copy has the right ids and indices, but both objects have the same memory for the
indices of the thick shells. After the destruction of one of them the other one reads freed memory, and its destruction frees it again. -/
theorem c74_double_free (cs : List Cmd) (V : Vals) (h : Runs (fun _ => none) cs V) (x y : Nat) (v : Val)
    (hy : V y = some v) (hx : V x = none) (ht : v (.indices .thick) ≠ []) :
    (∃ s, State.run (cs ++ [.copyCtor x y]) State.init = .ok s ∧ ∀ f, s.get x f = .ok ((v f).map some)) ∧
    (∃ s, State.run (cs ++ [.copyCtor x y, .destroy x]) State.init = .ok s ∧ s.get y (.indices .thick) = .ub) ∧
    State.run (cs ++ [.copyCtor x y, .destroy x, .destroy y]) State.init = .ub ∧
    State.run (cs ++ [.copyCtor x y, .destroy y, .destroy x]) State.init = .ub := by
  obtain ⟨s, e, r⟩ := run_refines h Rel.init
  obtain ⟨o, ho, g⟩ := r.obj hy
  have hox := r.absent hx
  have hxy : x ≠ y := by rintro rfl; rw [hx] at hy; cases hy
  obtain ⟨h1, ptr, c1, c2, c3, c4, c5, c6, -, -⟩ := copyTo_spec (s := s) x g
  obtain ⟨p, p1, p2⟩ := g.val _ ht
  have hlt : ∀ f q, o.ptr f = some q → q < s.heap.length := by
    intro f q hq
    obtain ⟨c, hc⟩ := g.live f q hq
    exact (List.getElem?_eq_some_iff.1 hc).1
  have hstep : s.step (.copyCtor x y) = .ok (State.put ⟨h1, s.objs⟩ x (some ⟨ptr, o.num⟩)) := by
    simp only [State.step, hox, ho]
    exact c1
  -- the destruction of the copy
  have hlive : ∀ f q, ptr f = some q → ∃ cells, h1[q]? = some ⟨true, cells⟩ := by
    intro f q hq
    by_cases hf : f = .indices .thick
    · subst hf
      rw [c4] at hq
      obtain ⟨c, hc⟩ := g.live _ q hq
      exact ⟨c, by rw [c2 q (hlt _ q hq)]; exact hc⟩
    · obtain ⟨q', c, q1, q2, q3, _⟩ := c5 f hf
      rw [q1] at hq
      cases hq
      exact ⟨c, q3⟩
  have hinj : ∀ f f' q, ptr f = some q → ptr f' = some q → f = f' := by
    intro f f' q h1' h2'
    by_cases hf : f = .indices .thick
    · by_cases hf' : f' = .indices .thick
      · rw [hf, hf']
      · subst hf
        obtain ⟨q', c, q1, q2, _⟩ := c5 f' hf'
        rw [q1] at h2'
        cases h2'
        rw [c4] at h1'
        have := hlt _ _ h1'
        omega
    · by_cases hf' : f' = .indices .thick
      · subst hf'
        obtain ⟨q', c, q1, q2, _⟩ := c5 f hf
        rw [q1] at h1'
        cases h1'
        rw [c4] at h2'
        have := hlt _ _ h2'
        omega
      · exact c6 f f' hf hf' (h1'.trans h2'.symm)
  obtain ⟨h2, f1, f2, f3, f4⟩ := freeAll_spec ptr freeOrder h1 (by decide) (fun f q _ hq => hlive f q hq)
    (fun f f' q _ _ => hinj f f' q)
  obtain ⟨d, hd⟩ := f4 (.indices .thick) p (mem_freeOrder _) (by rw [c4, p1])
  -- the destruction of the original
  obtain ⟨h3, k1, k2, k3, k4⟩ := freeAll_spec o.ptr freeOrder h1 (by decide)
    (fun f q _ hq => by
      obtain ⟨c, hc⟩ := g.live f q hq
      exact ⟨c, by rw [c2 q (hlt f q hq)]; exact hc⟩)
    (fun f f' q _ _ q1 q2 => (r.inj y y o o f f' q ho ho q1 q2).2)
  obtain ⟨d', hd'⟩ := k4 (.indices .thick) p (mem_freeOrder _) p1
  refine ⟨⟨State.put ⟨h1, s.objs⟩ x (some ⟨ptr, o.num⟩), ?_, fun f => ?_⟩,
    ⟨State.put (State.put ⟨h2, s.objs⟩ x (some ⟨ptr, o.num⟩)) x none, ?_, ?_⟩, ?_, ?_⟩
  · rw [run_append cs _ _ _ e, State.run, hstep]
    rfl
  · simp only [State.get, State.put, if_true]
    by_cases hv : v f = []
    · rw [hv, g.num, hv]; rfl
    · by_cases hf : f = .indices .thick
      · subst hf
        rw [c4, p1, load_full (l := (v (.indices .thick)).map some) (by rw [g.num]; simp) (by rw [c2 p (hlt _ p p1)]; exact p2)]
      · obtain ⟨q, c, q1, q2, q3, q4⟩ := c5 f hf
        rw [q1, load_full (by rw [g.num, q4 hv]; simp) q3, q4 hv]
  · rw [run_append cs _ _ _ e, State.run, hstep]
    simp only
    rw [State.run]
    simp only [State.step, State.put, if_true, State.destroy, f1]
    rfl
  · simp only [State.get, State.put, if_neg (Ne.symm hxy), ho, p1]
    unfold load
    rw [if_neg (by rw [g.num]; exact fun h0 => ht (List.eq_nil_of_length_eq_zero h0))]
    simp only [hd]
  · rw [run_append cs _ _ _ e, State.run, hstep]
    simp only
    rw [State.run]
    simp only [State.step, State.put, if_true, State.destroy, f1]
    rw [State.run]
    simp only [State.step, if_neg (Ne.symm hxy), ho, State.destroy]
    rw [freeAll_dead o.ptr freeOrder h2 (mem_freeOrder _) p1 ⟨d, hd⟩]
  · rw [run_append cs _ _ _ e, State.run, hstep]
    simp only
    rw [State.run]
    simp only [State.step, State.put, if_neg (Ne.symm hxy), ho, State.destroy, k1]
    rw [State.run]
    simp only [State.step, if_neg hxy, if_true, State.destroy]
    rw [freeAll_dead ptr freeOrder h3 (mem_freeOrder (.indices .thick)) (by rw [c4, p1]) ⟨d', hd'⟩]

/-- Specification: live memory that no part refers to. -/
def Lost (s : State) (p : Nat) : Prop :=
  (∃ cells, s.heap[p]? = some ⟨true, cells⟩) ∧ ∀ x o f, s.objs x = some o → o.ptr f ≠ some p

theorem freeAll_frame (ptr : Field → Option Nat) {p : Nat} : ∀ (fs : List Field) (h h' : Heap), (∀ f, ptr f ≠ some p) →
    freeAll ptr fs h = .ok h' → h'[p]? = h[p]? := by
  intro fs
  induction fs with
  | nil => intro h h' _ e; cases e; rfl
  | cons g fs ih =>
    intro h h' hp e
    rw [freeAll] at e
    cases hg : ptr g with
    | none => rw [hg] at e; exact ih h h' hp e
    | some q =>
      rw [hg] at e
      unfold free at e
      simp only at e
      cases hb : h[q]? with
      | none => rw [hb] at e; cases e
      | some b =>
        obtain ⟨l, c⟩ := b
        rw [hb] at e
        cases l with
        | false => cases e
        | true =>
          rw [ih _ h' hp e, List.getElem?_set_ne]
          rintro rfl
          exact hp g hg

theorem copyAll_frame (num : Kind → Nat) (src dst : Field → Option Nat) {p : Nat} : ∀ (fs : List Field) (h h' : Heap),
    (∀ f, dst f ≠ some p) → copyAll num src dst fs h = .ok h' → h'[p]? = h[p]? := by
  intro fs
  induction fs with
  | nil => intro h h' _ e; cases e; rfl
  | cons g fs ih =>
    intro h h' hp e
    rw [copyAll] at e
    split at e
    · exact ih h h' hp e
    · cases hl : load h (src g) (num g.kind) with
      | err => rw [hl] at e; cases e
      | ub => rw [hl] at e; cases e
      | abort => rw [hl] at e; cases e
      | ok new =>
        rw [hl] at e
        simp only [Res.bind_ok] at e
        cases hs : store h (dst g) new with
        | err => rw [hs] at e; cases e
        | ub => rw [hs] at e; cases e
        | abort => rw [hs] at e; cases e
        | ok h1 =>
          rw [hs] at e
          simp only [Res.bind_ok] at e
          rw [ih h1 h' hp e]
          unfold store at hs
          cases hq : dst g with
          | none => rw [hq] at hs; cases hs
          | some q =>
            rw [hq] at hs
            simp only at hs
            have hne : q ≠ p := by rintro rfl; exact hp g hq
            split at hs
            · split at hs
              · cases hs; rw [List.getElem?_set_ne hne]
              · cases hs
            · cases hs

theorem Lost.lt {s : State} {p : Nat} (l : Lost s p) : p < s.heap.length := by
  obtain ⟨⟨c, hc⟩, _⟩ := l
  exact (List.getElem?_eq_some_iff.1 hc).1

theorem Lost.copy {s s' : State} {p : Nat} (l : Lost s p) (x y : Nat) {o : Obj} {b : Bool} (ho : s.objs y = some o)
    (e : s.copyTo x o b = .ok s') : Lost s' p := by
  unfold State.copyTo at e
  cases ha : allocAll o.num allocOrder s.heap o.ptr with
  | mk h1 ptr =>
    obtain ⟨a1, a2, a3, a4, a5⟩ := allocAll_spec o.num allocOrder s.heap o.ptr h1 ptr ha
    rw [ha] at e
    simp only at e
    have hp : ∀ f, ptr f ≠ some p := by
      intro f hf
      by_cases hx : f = .indices .thick
      · subst hx
        rw [a3 _ (by decide)] at hf
        exact l.2 y o _ ho hf
      · obtain ⟨q, q1, q2, _⟩ := a4 f (mem_allocOrder f hx)
        rw [q1] at hf
        cases hf
        have := l.lt
        omega
    split at e
    · rename_i h2 hc
      cases e
      have := copyAll_frame o.num _ ptr copyOrder h1 h2 hp hc
      refine ⟨?_, fun z oz f hz => ?_⟩
      · obtain ⟨c, hc⟩ := l.1
        exact ⟨c, by show h2[p]? = _; rw [this, a1 p l.lt]; exact hc⟩
      · simp only [State.put] at hz
        by_cases hzx : z = x
        · simp only [hzx, if_true, Option.some.injEq] at hz
          subst hz
          exact hp f
        · simp only [hzx, if_false] at hz
          exact l.2 z oz f hz
    all_goals cases e

theorem Lost.move {s : State} {p : Nat} (l : Lost s p) (x y : Nat) {o : Obj} (ho : s.objs y = some o) :
    Lost (s.moveTo x y o) p := by
  refine ⟨l.1, fun z oz f hz => ?_⟩
  simp only [State.moveTo, State.put] at hz
  by_cases hzy : z = y
  · simp only [hzy, if_true, Option.some.injEq] at hz
    subst hz
    exact fun h => nomatch h
  · by_cases hzx : z = x
    · simp only [hzy, if_false, if_pos hzx, Option.some.injEq] at hz
      subst hz
      exact l.2 y _ f ho
    · simp only [hzy, hzx, if_false] at hz
      exact l.2 z oz f hz

theorem Lost.step {s s' : State} {p : Nat} (l : Lost s p) (c : Cmd) (e : s.step c = .ok s') : Lost s' p := by
  cases c with
  | read x data =>
    simp only [State.step] at e
    split at e
    · cases hr : readAll (column data) freeOrder s.heap (fun _ => none) with
      | mk h ptr =>
        rw [hr] at e
        cases e
        obtain ⟨a1, a2, a3, a4, a5⟩ := readAll_spec (column data) freeOrder s.heap _ h ptr (by decide) hr
        refine ⟨?_, fun z oz f hz => ?_⟩
        · obtain ⟨c, hc⟩ := l.1
          exact ⟨c, by show h[p]? = _; rw [a1 p l.lt]; exact hc⟩
        · simp only [State.put] at hz
          by_cases hzx : z = x
          · simp only [hzx, if_true, Option.some.injEq] at hz
            subst hz
            intro hf
            have hf' : ptr f = some p := hf
            by_cases h0 : column data f = []
            · rw [a3 f (.inr h0)] at hf'
              cases hf'
            · obtain ⟨q, q1, q2, _⟩ := a4 f (mem_freeOrder f) h0
              rw [q1] at hf'
              cases hf'
              have := l.lt
              omega
          · simp only [hzx, if_false] at hz
            exact l.2 z oz f hz
    · cases e
  | copyCtor x y =>
    simp only [State.step] at e
    split at e
    · rename_i o _ ho
      exact l.copy x y ho e
    · cases e
  | moveCtor x y =>
    simp only [State.step] at e
    split at e
    · rename_i o _ ho
      cases e
      exact l.move x y ho
    · cases e
  | copyAssign x y =>
    simp only [State.step] at e
    split at e
    · rename_i o _ ho
      exact l.copy x y ho e
    · cases e
  | moveAssign x y =>
    simp only [State.step] at e
    split at e
    · rename_i o _ ho
      cases e
      exact l.move x y ho
    · cases e
  | destroy x =>
    simp only [State.step] at e
    split at e
    · rename_i o ho
      unfold State.destroy at e
      split at e
      · rename_i h hf
        cases e
        have := freeAll_frame o.ptr freeOrder s.heap h (fun f => l.2 x o f ho) hf
        refine ⟨?_, fun z oz f hz => ?_⟩
        · obtain ⟨c, hc⟩ := l.1
          exact ⟨c, by show h[p]? = _; rw [this]; exact hc⟩
        · simp only [State.put] at hz
          by_cases hzx : z = x
          · simp only [hzx, if_true] at hz; cases hz
          · simp only [hzx, if_false] at hz
            exact l.2 z oz f hz
      all_goals cases e
    · cases e

theorem Lost.run {p : Nat} (cs : List Cmd) {s s' : State} (l : Lost s p) (e : State.run cs s = .ok s') : Lost s' p := by
  induction cs generalizing s with
  | nil => cases e; exact l
  | cons c cs ih =>
    rw [State.run] at e
    cases hc : s.step c with
    | ok s1 => rw [hc] at e; exact ih (l.step c hc) e
    | err => rw [hc] at e; cases e
    | ub => rw [hc] at e; cases e
    | abort => rw [hc] at e; cases e

/-- C74 is violated by every copy: the first block for the ids of the thick shells is lost, and no later program frees it. -/
theorem c74_copy_leaks (cs : List Cmd) (V : Vals) (h : Runs (fun _ => none) cs V) (x y : Nat) (v : Val)
    (hy : V y = some v) (hx : V x = none) :
    ∃ s p, State.run (cs ++ [.copyCtor x y]) State.init = .ok s ∧ Lost s p ∧
      ∀ ds s', State.run ds s = .ok s' → Lost s' p := by
  obtain ⟨s, e, r⟩ := run_refines h Rel.init
  obtain ⟨o, ho, g⟩ := r.obj hy
  have hox := r.absent hx
  obtain ⟨h1, ptr, c1, c2, c3, c4, c5, c6, c7, c8⟩ := copyTo_spec (s := s) x g
  have hstep : s.step (.copyCtor x y) = .ok (State.put ⟨h1, s.objs⟩ x (some ⟨ptr, o.num⟩)) := by
    simp only [State.step, hox, ho]
    exact c1
  have hl : Lost (State.put ⟨h1, s.objs⟩ x (some ⟨ptr, o.num⟩)) (s.heap.length + 1) := by
    refine ⟨c7, fun z oz f hz => ?_⟩
    simp only [State.put] at hz
    by_cases hzx : z = x
    · simp only [hzx, if_true, Option.some.injEq] at hz
      subst hz
      exact c8 f
    · simp only [hzx, if_false] at hz
      intro hf
      have := r.lt hz hf
      omega
  refine ⟨_, _, ?_, hl, fun ds s' hd => hl.run ds hd⟩
  rw [run_append cs _ _ _ e, State.run, hstep]
  rfl

/-- C74 is violated by every move assignment: the memory the target had before is lost, and no later program frees it. -/
theorem c74_move_assign_leaks (cs : List Cmd) (V : Vals) (h : Runs (fun _ => none) cs V) (x y : Nat) (v w : Val)
    (hx : V x = some v) (hy : V y = some w) (f : Field) (hf : v f ≠ []) (hxy : x ≠ y) :
    ∃ s p, State.run (cs ++ [.moveAssign x y]) State.init = .ok s ∧ Lost s p ∧
      ∀ ds s', State.run ds s = .ok s' → Lost s' p := by
  obtain ⟨s, e, r⟩ := run_refines h Rel.init
  obtain ⟨o, ho, g⟩ := r.obj hx
  obtain ⟨o', ho', _⟩ := r.obj hy
  obtain ⟨p, p1, p2⟩ := g.val f hf
  have hl : Lost (s.moveTo x y o') p := by
    refine ⟨⟨_, p2⟩, fun z oz f' hz hp => ?_⟩
    simp only [State.moveTo, State.put] at hz
    by_cases hzy : z = y
    · simp only [hzy, if_true, Option.some.injEq] at hz
      subst hz
      cases hp
    · by_cases hzx : z = x
      · simp only [hzy, if_false, if_pos hzx, Option.some.injEq] at hz
        subst hz
        exact hxy (r.inj x y o _ f f' p ho ho' p1 hp).1
      · simp only [hzy, hzx, if_false] at hz
        exact hzx (r.inj x z o oz f f' p ho hz p1 hp).1.symm
  refine ⟨_, p, ?_, hl, fun ds s' hd => hl.run ds hd⟩
  rw [run_append cs _ _ _ e, State.run]
  simp only [State.step, ho, ho']
  rfl

/-- Not vacuous: a part with two solids and a shell is copied, the original is moved to another one, everything is destroyed. -/
example : let data : Kind → List (Nat × Nat) := fun | .solid => [(11, 0), (12, 1)] | .shell => [(21, 4)] | _ => []
    Runs (fun _ => none) [.read 0 data, .copyCtor 1 0, .moveCtor 2 0, .copyAssign 0 1, .destroy 1]
      (((((Vals.put (fun _ => none) 0 (some (column data))).put 1 (some (column data))).put 2 (some (column data))).put 0
        (some emptyVal)).put 0 (some (column data)) |>.put 1 none) := by
  intro data
  have hc : column data = (fun | .ids k => (data k).map Prod.fst | .indices k => (data k).map Prod.snd) := by
    funext f; cases f <;> rfl
  rw [hc]
  refine .cons (by rfl) trivial (.cons (by rfl) ?_ (.cons (by rfl) trivial (.cons (by rfl) ?_ (.cons (by rfl) trivial .nil))))
  · intro v hv
    cases hv
    exact ⟨rfl, rfl⟩
  · refine ⟨by decide, fun v hv => ?_⟩
    cases hv
    exact ⟨rfl, rfl⟩

end Dyna.Part
