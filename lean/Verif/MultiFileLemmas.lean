import Verif.MultiFile
/-!
# Invariant of the shared file
-/

namespace Dyna.MF

/-- The thread is inside of the section protected by the main mutex.
Part of the specification, models no code. -/
def PC.inMain : PC → Bool
  | .accScan _ | .accTry _ | .accUndo _ | .accGot _ _ | .accNew | .accOpen _ | .accNewLock _ _
  | .accFail | .retUnlock _ _ | .retMain | .killScan _ | .killTry _ | .killUndo _ | .killMain => true
  | _ => false

/-- The handle whose mutex the thread owns. Part of the specification, models no code. -/
def PC.owned : PC → Option Nat
  | .accTry i | .accUndo i | .accGot i _ | .hold i _ | .retLock i _ | .retUnlock i _
  | .killTry i | .killUndo i => some i
  | _ => none

/-- The handle and the `FILE` object the thread relies on. Part of the specification, models no code. -/
def PC.uses : PC → Option (Nat × Nat)
  | .accGot i f | .hold i f | .retLock i f | .retUnlock i f | .accNewLock i f => some (i, f)
  | _ => none

/-- The handle the thread is creating. Part of the specification, models no code. -/
def PC.fresh : PC → Option Nat
  | .accOpen i | .accNewLock i _ => some i
  | _ => none

/-- Part of the specification, models no code. -/
structure Inv (s : St) : Prop where
  main : ∀ t, s.main = some t ↔ (s.pc t).inMain = true
  own : ∀ t i, (s.pc t).owned = some i ↔ ∃ h, s.handles[i]? = some h ∧ h.owner = some t
  file : ∀ t i f, (s.pc t).uses = some (i, f) → ∃ h, s.handles[i]? = some h ∧ h.file = some f
  opn : ∀ (i : Nat) (h : Handle) (f : Nat), s.handles[i]? = some h → h.file = some f → s.files f ≠ none ∧ f < s.next
  inj : ∀ (i j : Nat) (h h' : Handle) (f : Nat), s.handles[i]? = some h → s.handles[j]? = some h' → h.file = some f →
    h'.file = some f → i = j
  fresh : ∀ t i, (s.pc t).fresh = some i → ∃ h, s.handles[i]? = some h ∧ h.owner = none ∧
    ((s.pc t).uses = none → h.file = none)

theorem inv_init : Inv init := by
  constructor <;> simp [init, PC.inMain, PC.owned, PC.uses, PC.fresh]

/-- Only the control state of `t` changes, to one with the same relations. -/
theorem inv_goto {s : St} (h : Inv s) (t : Nat) (pc : PC) (h1 : pc.inMain = (s.pc t).inMain)
    (h2 : pc.owned = (s.pc t).owned)
    (h3 : ∀ i f, pc.uses = some (i, f) → ∃ h, s.handles[i]? = some h ∧ h.file = some f)
    (h4 : pc.fresh = none) :
    Inv (s.goto t pc) := by
  constructor
  · intro u
    simp only [St.goto]
    by_cases hu : u = t
    · subst hu; rw [upd_same, h1]; exact h.main u
    · rw [upd_other _ _ hu]; exact h.main u
  · intro u i
    simp only [St.goto]
    by_cases hu : u = t
    · subst hu; rw [upd_same, h2]; exact h.own u i
    · rw [upd_other _ _ hu]; exact h.own u i
  · intro u i f
    simp only [St.goto]
    by_cases hu : u = t
    · subst hu; rw [upd_same]; exact h3 i f
    · rw [upd_other _ _ hu]; exact h.file u i f
  · exact h.opn
  · exact h.inj
  · intro u i
    simp only [St.goto]
    by_cases hu : u = t
    · subst hu; rw [upd_same, h4]; simp
    · rw [upd_other _ _ hu]; exact h.fresh u i

theorem inv_lockMain {s s' : St} (h : Inv s) (t : Nat) (pc : PC) (ev)
    (h1 : pc.inMain = true) (h2 : pc.owned = (s.pc t).owned)
    (h3 : ∀ x, pc.uses = some x → (s.pc t).uses = some x)
    (h4 : pc.fresh = none) (hs : lockMain s t pc = .ok s' ev) : Inv s' := by
  unfold lockMain at hs
  split at hs
  · rename_i hm
    simp only [Out.ok.injEq] at hs
    obtain ⟨rfl, rfl⟩ := hs
    constructor
    · intro u
      simp only [Option.some.injEq]
      by_cases hu : u = t
      · subst hu; simp [h1]
      · rw [upd_other _ _ hu]
        have := h.main u
        rw [hm] at this
        constructor
        · intro e; exact absurd e.symm hu
        · intro e; exact absurd (this.2 e) (by simp)
    · intro u i
      simp only
      by_cases hu : u = t
      · subst hu; rw [upd_same, h2]; exact h.own u i
      · rw [upd_other _ _ hu]; exact h.own u i
    · intro u i f
      simp only
      by_cases hu : u = t
      · subst hu; rw [upd_same]; exact fun hx => h.file u i f (h3 _ hx)
      · rw [upd_other _ _ hu]; exact h.file u i f
    · exact h.opn
    · exact h.inj
    · intro u i
      simp only
      by_cases hu : u = t
      · subst hu; rw [upd_same, h4]; simp
      · rw [upd_other _ _ hu]; exact h.fresh u i
  · simp at hs

theorem inv_unlockMain {s s' : St} (h : Inv s) (t : Nat) (pc : PC) (e0 ev)
    (h1 : pc.inMain = false) (h2 : pc.owned = (s.pc t).owned)
    (h3 : ∀ x, pc.uses = some x → (s.pc t).uses = some x)
    (h4 : pc.fresh = none) (hs : unlockMain s t pc e0 = .ok s' ev) : Inv s' := by
  unfold unlockMain at hs
  split at hs
  · rename_i hm
    simp only [Out.ok.injEq] at hs
    obtain ⟨rfl, rfl⟩ := hs
    constructor
    · intro u
      simp only
      by_cases hu : u = t
      · subst hu; simp [h1]
      · rw [upd_other _ _ hu]
        have := h.main u
        rw [hm] at this
        simp only [Option.some.injEq] at this
        constructor
        · intro e; simp at e
        · intro e; exact absurd (this.2 e).symm hu
    · intro u i
      simp only
      by_cases hu : u = t
      · subst hu; rw [upd_same, h2]; exact h.own u i
      · rw [upd_other _ _ hu]; exact h.own u i
    · intro u i f
      simp only
      by_cases hu : u = t
      · subst hu; rw [upd_same]; exact fun hx => h.file u i f (h3 _ hx)
      · rw [upd_other _ _ hu]; exact h.file u i f
    · exact h.opn
    · exact h.inj
    · intro u i
      simp only
      by_cases hu : u = t
      · subst hu; rw [upd_same, h4]; simp
      · rw [upd_other _ _ hu]; exact h.fresh u i
  · simp at hs

/-- A thread outside of the section does not create a handle. -/
theorem fresh_inMain {pc : PC} {i : Nat} (h : pc.fresh = some i) : pc.inMain = true := by
  cases pc <;> simp [PC.fresh] at h <;> rfl

theorem set_get {l : List Handle} {i j : Nat} {h x : Handle} (hi : l[i]? = some x) :
    (l.set i h)[j]? = if j = i then some h else l[j]? := by
  have hlt : i < l.length := (List.getElem?_eq_some_iff.1 hi).1
  rw [List.getElem?_set]
  by_cases hji : j = i
  · subst hji; simp [hlt]
  · rw [if_neg (fun e => hji e.symm), if_neg hji]

/-- The thread that owns the main mutex changes the owner of handle `i` from `o` to `o'`, both
free or itself. -/
theorem inv_setOwner {s : St} (h : Inv s) (t i : Nat) (hd : Handle) (o : Option Nat) (pc : PC)
    (hi : s.handles[i]? = some hd) (hmain : (s.pc t).inMain = true)
    (hold : (hd.owner = none ∧ o = some t ∧ (s.pc t).owned = none ∧ pc.owned = some i) ∨
      (hd.owner = some t ∧ o = none ∧ pc.owned = none))
    (h1 : pc.inMain = true)
    (h3 : ∀ j f, pc.uses = some (j, f) → (s.pc t).uses = some (j, f))
    (h4 : pc.fresh = none) :
    Inv { s with handles := s.handles.set i { hd with owner := o }, pc := upd s.pc t pc } := by
  have hmine : ∀ u, u ≠ t → (s.pc u).inMain = false := by
    intro u hu
    have a := (h.main t).2 hmain
    cases hc : (s.pc u).inMain with
    | false => rfl
    | true =>
      have b := (h.main u).2 hc
      rw [a] at b; simp at b; exact absurd b.symm hu
  have hfile : ∀ (j : Nat) (x : Handle) (f : Nat), (s.handles.set i { hd with owner := o })[j]? = some x → x.file = some f →
      ∃ y : Handle, s.handles[j]? = some y ∧ y.file = some f := by
    intro j x f hx hf
    rw [set_get hi] at hx
    split at hx
    · rename_i e; subst e; simp at hx; subst hx; exact ⟨hd, hi, hf⟩
    · exact ⟨x, hx, hf⟩
  have hfile' : ∀ (j : Nat) (y : Handle) (f : Nat), s.handles[j]? = some y → y.file = some f →
      ∃ x : Handle, (s.handles.set i { hd with owner := o })[j]? = some x ∧ x.file = some f := by
    intro j y f hy hf
    rw [set_get hi]
    split
    · rename_i e; subst e; rw [hi] at hy; simp at hy; subst hy; exact ⟨_, rfl, hf⟩
    · exact ⟨y, hy, hf⟩
  constructor
  · intro u
    simp only
    by_cases hu : u = t
    · subst hu; rw [upd_same, h1]; simpa [hmain] using h.main u
    · rw [upd_other _ _ hu]; exact h.main u
  · intro u j
    simp only
    rw [set_get hi]
    by_cases hu : u = t
    · subst hu
      rw [upd_same]
      rcases hold with ⟨p1, p2, p3, p4⟩ | ⟨p1, p2, p3⟩
      · rw [p4]
        by_cases hj : j = i
        · subst hj; simp [p2]
        · rw [if_neg hj]
          constructor
          · intro e; simp at e; exact absurd e.symm hj
          · intro e
            have := (h.own u j).2 e
            rw [p3] at this; simp at this
      · rw [p3]
        by_cases hj : j = i
        · subst hj; simp [p2]
        · rw [if_neg hj]
          constructor
          · intro e; simp at e
          · intro e
            have a1 := (h.own u j).2 e
            have a2 := (h.own u i).2 ⟨hd, hi, p1⟩
            rw [a1] at a2; simp at a2; exact absurd a2 hj
    · rw [upd_other _ _ hu, h.own u j]
      by_cases hj : j = i
      · subst hj
        rw [if_pos rfl, hi]
        rcases hold with ⟨p1, p2, _⟩ | ⟨p1, p2, _⟩
        · simp [p1, p2]; exact fun e => hu e.symm
        · simp [p1, p2]; exact fun e => hu e.symm
      · rw [if_neg hj]
  · intro u j f
    simp only
    intro hx
    have : (s.pc u).uses = some (j, f) := by
      by_cases hu : u = t
      · subst hu; rw [upd_same] at hx; exact h3 j f hx
      · rw [upd_other _ _ hu] at hx; exact hx
    obtain ⟨y, y1, y2⟩ := h.file u j f this
    exact hfile' j y f y1 y2
  · intro j x f hx hf
    obtain ⟨y, y1, y2⟩ := hfile j x f hx hf
    exact h.opn j y f y1 y2
  · intro j k x x' f hx hx' hf hf'
    obtain ⟨y, y1, y2⟩ := hfile j x f hx hf
    obtain ⟨y', y1', y2'⟩ := hfile k x' f hx' hf'
    exact h.inj j k y y' f y1 y1' y2 y2'
  · intro u j
    simp only
    by_cases hu : u = t
    · subst hu; rw [upd_same, h4]; simp
    · rw [upd_other _ _ hu]
      intro hx
      have := fresh_inMain hx
      rw [hmine u hu] at this; simp at this

/-- The thread that owns the main mutex stores a new `FILE` object in handle `i`. -/
theorem inv_openFile {s s' : St} (h : Inv s) (t i : Nat) (hd : Handle) (pc : PC) (ev)
    (hi : s.handles[i]? = some hd) (hnone : hd.file = none) (hmain : (s.pc t).inMain = true)
    (h1 : pc.inMain = true) (h2 : pc.owned = (s.pc t).owned)
    (h3 : pc.uses = some (i, s.next)) (h4 : ∀ j, pc.fresh = some j → (s.pc t).fresh = some j)
    (hs : openFile s t i hd pc = .ok s' ev) : Inv s' := by
  unfold openFile at hs
  simp only [Out.ok.injEq] at hs
  obtain ⟨rfl, rfl⟩ := hs
  constructor
  · intro u
    simp only
    by_cases hu : u = t
    · subst hu; rw [upd_same, h1]; simpa [hmain] using h.main u
    · rw [upd_other _ _ hu]; exact h.main u
  · intro u j
    simp only
    rw [set_get hi]
    have : (upd s.pc t pc u).owned = (s.pc u).owned := by
      by_cases hu : u = t
      · subst hu; rw [upd_same, h2]
      · rw [upd_other _ _ hu]
    rw [this, h.own u j]
    by_cases hj : j = i
    · subst hj; simp [hi]
    · rw [if_neg hj]
  · intro u j f
    simp only
    rw [set_get hi]
    by_cases hu : u = t
    · subst hu
      rw [upd_same, h3]
      intro e; simp at e
      obtain ⟨rfl, rfl⟩ := e
      exact ⟨_, by rw [if_pos rfl], rfl⟩
    · rw [upd_other _ _ hu]
      intro e
      obtain ⟨y, y1, y2⟩ := h.file u j f e
      by_cases hj : j = i
      · subst hj; rw [hi] at y1; simp at y1; subst y1; rw [hnone] at y2; simp at y2
      · exact ⟨y, by rw [if_neg hj]; exact y1, y2⟩
  · intro j x f hx hf
    simp only at hx ⊢
    rw [set_get hi] at hx
    split at hx
    · simp at hx; subst hx; simp at hf; subst hf
      exact ⟨by simp, by omega⟩
    · obtain ⟨a, b⟩ := h.opn j x f hx hf
      refine ⟨?_, by omega⟩
      rw [upd_other _ _ (by omega)]; exact a
  · intro j k x x' f hx hx' hf hf'
    simp only at hx hx'
    rw [set_get hi] at hx hx'
    split at hx
    · split at hx'
      · omega
      · simp at hx; subst hx; simp at hf; subst hf
        have := (h.opn k x' _ hx' hf').2; omega
    · split at hx'
      · simp at hx'; subst hx'; simp at hf'; subst hf'
        have := (h.opn j x _ hx hf).2; omega
      · exact h.inj j k x x' f hx hx' hf hf'
  · intro u j
    simp only
    rw [set_get hi]
    intro hx
    have : (s.pc u).fresh = some j := by
      by_cases hu : u = t
      · subst hu; rw [upd_same] at hx; exact h4 j hx
      · rw [upd_other _ _ hu] at hx; exact hx
    obtain ⟨y, y1, y2, y3⟩ := h.fresh u j this
    have hmine : u = t := by
      have a := (h.main t).2 hmain
      have b := (h.main u).2 (fresh_inMain this)
      rw [a] at b; simp at b; exact b.symm
    subst hmine
    split
    · rename_i e; subst e; rw [hi] at y1; simp at y1; subst y1
      exact ⟨_, rfl, y2, by rw [upd_same, h3]; simp⟩
    · rename_i e
      exact ⟨y, y1, y2, by rw [upd_same, h3]; simp⟩

/-- The array grows by one free handle without a file. -/
theorem inv_append {s : St} (h : Inv s) (t : Nat) (hpc : s.pc t = .accNew) :
    Inv { s with handles := s.handles ++ [⟨none, none⟩]
                 pc := upd s.pc t (.accOpen s.handles.length) } := by
  have hget : ∀ (j : Nat) (x : Handle), (s.handles ++ [⟨none, none⟩])[j]? = some x →
      s.handles[j]? = some x ∨ (j = s.handles.length ∧ x = ⟨none, none⟩) := by
    intro j x hx
    rcases Nat.lt_trichotomy j s.handles.length with hj | hj | hj
    · rw [List.getElem?_append_left hj] at hx; exact .inl hx
    · subst hj; simp at hx; exact .inr ⟨rfl, hx.symm⟩
    · rw [List.getElem?_eq_none (by simp; omega)] at hx; simp at hx
  have hget' : ∀ (j : Nat) (x : Handle), s.handles[j]? = some x →
      (s.handles ++ [⟨none, none⟩])[j]? = some x := by
    intro j x hx
    rw [List.getElem?_append_left (List.getElem?_eq_some_iff.1 hx).1]; exact hx
  constructor
  · intro u
    simp only
    by_cases hu : u = t
    · subst hu; rw [upd_same]; simpa [hpc, PC.inMain] using h.main u
    · rw [upd_other _ _ hu]; exact h.main u
  · intro u i
    simp only
    have : (upd s.pc t (.accOpen s.handles.length) u).owned = (s.pc u).owned := by
      by_cases hu : u = t
      · subst hu; rw [upd_same, hpc]; rfl
      · rw [upd_other _ _ hu]
    rw [this, h.own u i]
    constructor
    · rintro ⟨x, x1, x2⟩; exact ⟨x, hget' i x x1, x2⟩
    · rintro ⟨x, x1, x2⟩
      rcases hget i x x1 with hx | ⟨_, rfl⟩
      · exact ⟨x, hx, x2⟩
      · simp at x2
  · intro u i f
    simp only
    by_cases hu : u = t
    · subst hu; rw [upd_same]; simp [PC.uses]
    · rw [upd_other _ _ hu]
      intro e
      obtain ⟨x, x1, x2⟩ := h.file u i f e
      exact ⟨x, hget' i x x1, x2⟩
  · intro i x f hx hf
    rcases hget i x hx with hx | ⟨_, rfl⟩
    · exact h.opn i x f hx hf
    · simp at hf
  · intro i j x x' f hx hx' hf hf'
    rcases hget i x hx with hx | ⟨_, rfl⟩
    · rcases hget j x' hx' with hx' | ⟨_, rfl⟩
      · exact h.inj i j x x' f hx hx' hf hf'
      · simp at hf'
    · simp at hf
  · intro u i
    simp only
    by_cases hu : u = t
    · subst hu
      rw [upd_same]
      simp only [PC.fresh, Option.some.injEq]
      rintro rfl
      exact ⟨⟨none, none⟩, by simp, rfl, fun _ => rfl⟩
    · rw [upd_other _ _ hu]
      intro e
      obtain ⟨x, x1, x2, x3⟩ := h.fresh u i e
      exact ⟨x, hget' i x x1, x2, x3⟩

/-- The thread that owns handle `j` closes its file. -/
theorem inv_close {s : St} (h : Inv s) (t j : Nat) (hd : Handle) (f : Nat)
    (hpc : s.pc t = .killTry j) (hi : s.handles[j]? = some hd) (hf : hd.file = some f) :
    Inv { s with handles := s.handles.set j { hd with file := none }
                 files := upd s.files f none
                 pc := upd s.pc t (.killUndo j) } := by
  have hown : ∃ h, s.handles[j]? = some h ∧ h.owner = some t :=
    (h.own t j).1 (by rw [hpc]; rfl)
  have hmain : s.main = some t := (h.main t).2 (by rw [hpc]; rfl)
  have hmine : ∀ u, u ≠ t → (s.pc u).inMain = false := by
    intro u hu
    cases hc : (s.pc u).inMain with
    | false => rfl
    | true =>
      have b := (h.main u).2 hc
      rw [hmain] at b; simp at b; exact absurd b.symm hu
  have hnot : ∀ u i g, (s.pc u).uses = some (i, g) → i ≠ j := by
    intro u i g e hij
    subst hij
    have hu : u ≠ t := by rintro rfl; rw [hpc] at e; simp [PC.uses] at e
    have ho : (s.pc u).owned = some i := by
      have hm := hmine u hu
      cases hc : s.pc u <;> rw [hc] at e hm <;> simp [PC.uses, PC.owned, PC.inMain] at e hm ⊢
      · exact e.1
      · exact e.1
    obtain ⟨x, x1, x2⟩ := (h.own u i).1 ho
    obtain ⟨y, y1, y2⟩ := hown
    rw [x1] at y1; simp at y1; subst y1
    rw [x2] at y2; simp at y2; exact hu y2
  constructor
  · intro u
    simp only
    by_cases hu : u = t
    · subst hu; rw [upd_same]; simpa [hpc, PC.inMain] using h.main u
    · rw [upd_other _ _ hu]; exact h.main u
  · intro u i
    simp only
    rw [set_get hi]
    have : (upd s.pc t (.killUndo j) u).owned = (s.pc u).owned := by
      by_cases hu : u = t
      · subst hu; rw [upd_same, hpc]; rfl
      · rw [upd_other _ _ hu]
    rw [this, h.own u i]
    by_cases hj : i = j
    · subst hj; simp [hi]
    · rw [if_neg hj]
  · intro u i g
    simp only
    by_cases hu : u = t
    · subst hu; rw [upd_same]; simp [PC.uses]
    · rw [upd_other _ _ hu]
      intro e
      obtain ⟨x, x1, x2⟩ := h.file u i g e
      exact ⟨x, by rw [set_get hi, if_neg (hnot u i g e)]; exact x1, x2⟩
  · intro i x g hx hg
    simp only at hx ⊢
    rw [set_get hi] at hx
    split at hx
    · simp at hx; subst hx; simp at hg
    · rename_i hne
      obtain ⟨a, b⟩ := h.opn i x g hx hg
      refine ⟨?_, b⟩
      rw [upd_other]
      · exact a
      · rintro rfl
        exact hne (h.inj i j x hd g hx hi hg hf)
  · intro i k x x' g hx hx' hg hg'
    simp only at hx hx'
    rw [set_get hi] at hx hx'
    split at hx
    · simp at hx; subst hx; simp at hg
    · split at hx'
      · simp at hx'; subst hx'; simp at hg'
      · exact h.inj i k x x' g hx hx' hg hg'
  · intro u i
    simp only
    by_cases hu : u = t
    · subst hu; rw [upd_same]; simp [PC.fresh]
    · rw [upd_other _ _ hu]
      intro hx
      have := fresh_inMain hx
      rw [hmine u hu] at this; simp at this

/-- A thread moves the position of the file it uses. -/
theorem inv_move {s : St} (h : Inv s) (f : Nat) (p : Nat) :
    Inv { s with files := upd s.files f (some p) } := by
  refine ⟨h.main, h.own, h.file, ?_, h.inj, h.fresh⟩
  intro i x g hx hg
  obtain ⟨a, b⟩ := h.opn i x g hx hg
  refine ⟨?_, b⟩
  simp only
  by_cases e : g = f
  · subst e; simp
  · rw [upd_other _ _ e]; exact a

theorem inv_unlockHandle {s s' : St} (h : Inv s) (t i : Nat) (pc : PC) (ev)
    (hmain : (s.pc t).inMain = true) (h1 : pc.inMain = true) (h2 : pc.owned = none)
    (h3 : pc.uses = none) (h4 : pc.fresh = none) (hs : unlockHandle s t i pc = .ok s' ev) :
    Inv s' := by
  unfold unlockHandle at hs
  split at hs
  · simp at hs
  · rename_i hd hi
    split at hs
    · rename_i ho
      simp only [Out.ok.injEq] at hs; rw [← hs.1]
      exact inv_setOwner h t i hd _ _ hi hmain (.inr ⟨ho, rfl, h2⟩) h1 (by simp [h3]) h4
    · simp at hs

/-- Every transition keeps the invariant. -/
theorem step_inv {content : Bytes} {s s' : St} {t : Nat} {a : Act} {ev : Option Ev} (h : Inv s)
    (hs : step content s t a = .ok s' ev) : Inv s' := by
  cases hpc : s.pc t with
  | idle =>
    cases a <;> simp only [step, hpc] at hs <;> try contradiction
    · simp only [Out.ok.injEq] at hs; rw [← hs.1]
      exact inv_goto h _ _ (by rw [hpc]; rfl) (by rw [hpc]; rfl) (by simp [PC.uses])
        rfl
    · simp only [Out.ok.injEq] at hs; rw [← hs.1]
      exact inv_goto h _ _ (by rw [hpc]; rfl) (by rw [hpc]; rfl) (by simp [PC.uses])
        rfl
  | accLock =>
    cases a <;> simp only [step, hpc] at hs <;> try contradiction
    exact inv_lockMain h _ _ _ rfl (by rw [hpc]; rfl) (by simp [PC.uses]) rfl hs
  | accScan i =>
    cases a <;> simp only [step, hpc] at hs <;> try contradiction
    split at hs
    · simp only [Out.ok.injEq] at hs; rw [← hs.1]
      exact inv_goto h _ _ (by rw [hpc]; rfl) (by rw [hpc]; rfl) (by simp [PC.uses])
        rfl
    · rename_i hd hi
      unfold tryLock at hs
      split at hs
      · rename_i ho
        simp only [Out.ok.injEq] at hs; rw [← hs.1]
        exact inv_setOwner h t i hd _ _ hi (by rw [hpc]; rfl)
          (.inl ⟨ho, rfl, by rw [hpc]; rfl, rfl⟩) rfl (by simp [PC.uses]) rfl
      · simp only [Out.ok.injEq] at hs; rw [← hs.1]
        exact inv_goto h _ _ (by rw [hpc]; rfl) (by rw [hpc]; rfl) (by simp [PC.uses])
          rfl
  | accTry i =>
    cases a <;> simp only [step, hpc] at hs <;> try contradiction
    split at hs
    · simp at hs
    · rename_i hd hi
      split at hs
      · rename_i f hf
        simp only [Out.ok.injEq] at hs; rw [← hs.1]
        refine inv_goto h _ _ (by rw [hpc]; rfl) (by rw [hpc]; rfl) ?_ rfl
        intro j g e
        simp only [PC.uses, Option.some.injEq, Prod.mk.injEq] at e
        rw [← e.1, ← e.2]; exact ⟨hd, hi, hf⟩
      · rename_i hf
        split at hs
        · exact inv_openFile h t i hd _ _ hi hf (by rw [hpc]; rfl) rfl (by rw [hpc]; rfl) rfl
            (by simp [PC.fresh]) hs
        · simp only [Out.ok.injEq] at hs; rw [← hs.1]
          exact inv_goto h _ _ (by rw [hpc]; rfl) (by rw [hpc]; rfl) (by simp [PC.uses])
            rfl
  | accUndo i =>
    cases a <;> simp only [step, hpc] at hs <;> try contradiction
    exact inv_unlockHandle h _ _ _ _ (by rw [hpc]; rfl) rfl rfl rfl rfl hs
  | accGot i f =>
    cases a <;> simp only [step, hpc] at hs <;> try contradiction
    exact inv_unlockMain h _ _ _ _ rfl (by rw [hpc]; rfl) (by rw [hpc]; exact fun x hx => hx) rfl hs
  | accNew =>
    cases a <;> simp only [step, hpc] at hs <;> try contradiction
    simp only [Out.ok.injEq] at hs; rw [← hs.1]
    exact inv_append h t hpc
  | accOpen i =>
    cases a <;> simp only [step, hpc] at hs <;> try contradiction
    split at hs
    · simp at hs
    · rename_i hd hi
      obtain ⟨x, x1, x2, x3⟩ := h.fresh t i (by rw [hpc]; rfl)
      rw [hi] at x1; simp at x1; subst x1
      split at hs
      · exact inv_openFile h t i hd _ _ hi (x3 (by rw [hpc]; rfl)) (by rw [hpc]; rfl) rfl
          (by rw [hpc]; rfl) rfl (by rw [hpc]; exact fun j hj => hj) hs
      · simp only [Out.ok.injEq] at hs; rw [← hs.1]
        exact inv_goto h _ _ (by rw [hpc]; rfl) (by rw [hpc]; rfl) (by simp [PC.uses]) rfl
  | accNewLock i f =>
    cases a <;> simp only [step, hpc] at hs <;> try contradiction
    split at hs
    · simp at hs
    · rename_i hd hi
      split at hs
      · rename_i ho
        simp only [Out.ok.injEq] at hs; rw [← hs.1]
        exact inv_setOwner h t i hd _ _ hi (by rw [hpc]; rfl)
          (.inl ⟨ho, rfl, by rw [hpc]; rfl, rfl⟩) rfl
          (by rw [hpc]; exact fun j g e => e) rfl
      · simp at hs
  | accFail =>
    cases a <;> simp only [step, hpc] at hs <;> try contradiction
    exact inv_unlockMain h _ _ _ _ rfl (by rw [hpc]; rfl) (by simp [PC.uses]) rfl hs
  | hold i f =>
    cases a <;> simp only [step, hpc] at hs <;> try contradiction
    · simp only [Out.ok.injEq] at hs; rw [← hs.1]
      refine inv_goto h _ _ (by rw [hpc]; rfl) (by rw [hpc]; rfl) ?_ rfl
      intro j g e
      exact h.file t j g (by rw [hpc]; exact e)
    · split at hs
      · simp at hs
      · simp only [Out.ok.injEq] at hs; rw [← hs.1]; exact inv_move h _ _
    · split at hs
      · simp at hs
      · simp only [Out.ok.injEq] at hs; rw [← hs.1]; exact inv_move h _ _
  | retLock i f =>
    cases a <;> simp only [step, hpc] at hs <;> try contradiction
    exact inv_lockMain h _ _ _ rfl (by rw [hpc]; rfl) (by rw [hpc]; exact fun x hx => hx) rfl hs
  | retUnlock i f =>
    cases a <;> simp only [step, hpc] at hs <;> try contradiction
    exact inv_unlockHandle h _ _ _ _ (by rw [hpc]; rfl) rfl rfl rfl rfl hs
  | retMain =>
    cases a <;> simp only [step, hpc] at hs <;> try contradiction
    exact inv_unlockMain h _ _ _ _ rfl (by rw [hpc]; rfl) (by simp [PC.uses]) rfl hs
  | killLock =>
    cases a <;> simp only [step, hpc] at hs <;> try contradiction
    exact inv_lockMain h _ _ _ rfl (by rw [hpc]; rfl) (by simp [PC.uses]) rfl hs
  | killScan i =>
    cases a <;> simp only [step, hpc] at hs <;> try contradiction
    split at hs
    · simp only [Out.ok.injEq] at hs; rw [← hs.1]
      exact inv_goto h _ _ (by rw [hpc]; rfl) (by rw [hpc]; rfl) (by simp [PC.uses]) rfl
    · rename_i hd hi
      unfold tryLock at hs
      split at hs
      · rename_i ho
        simp only [Out.ok.injEq] at hs; rw [← hs.1]
        exact inv_setOwner h t i hd _ _ hi (by rw [hpc]; rfl)
          (.inl ⟨ho, rfl, by rw [hpc]; rfl, rfl⟩) rfl (by simp [PC.uses]) rfl
      · simp only [Out.ok.injEq] at hs; rw [← hs.1]
        exact inv_goto h _ _ (by rw [hpc]; rfl) (by rw [hpc]; rfl) (by simp [PC.uses]) rfl
  | killTry i =>
    cases a <;> simp only [step, hpc] at hs <;> try contradiction
    split at hs
    · simp at hs
    · rename_i hd hi
      split at hs
      · simp only [Out.ok.injEq] at hs; rw [← hs.1]
        exact inv_goto h _ _ (by rw [hpc]; rfl) (by rw [hpc]; rfl) (by simp [PC.uses]) rfl
      · rename_i f hf
        split at hs
        · simp at hs
        · simp only [Out.ok.injEq] at hs; rw [← hs.1]
          exact inv_close h t i hd f hpc hi hf
  | killUndo i =>
    cases a <;> simp only [step, hpc] at hs <;> try contradiction
    exact inv_unlockHandle h _ _ _ _ (by rw [hpc]; rfl) rfl rfl rfl rfl hs
  | killMain =>
    cases a <;> simp only [step, hpc] at hs <;> try contradiction
    exact inv_unlockMain h _ _ _ _ rfl (by rw [hpc]; rfl) (by simp [PC.uses]) rfl hs

theorem reach_inv {content : Bytes} {s : St} {tr : List Ev} (h : Reach content s tr) : Inv s := by
  induction h with
  | init => exact inv_init
  | step _ hs ih => exact step_inv ih hs

end Dyna.MF
