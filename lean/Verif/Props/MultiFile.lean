import Verif.MultiFileLemmas
/-!
# Properties of shared files (C22-C25, C56)
-/

namespace Dyna.MF

/-! ## C22 -/

/-- C22. In every reachable state two different threads that use a handle use different
handles and different `FILE` objects. -/
theorem c22_exclusive {content : Bytes} {s : St} {tr : List Ev} (h : Reach content s tr)
    {t t' i i' f f' : Nat} (ht : s.pc t = .hold i f) (ht' : s.pc t' = .hold i' f') (hne : t ≠ t') :
    i ≠ i' ∧ f ≠ f' := by
  have inv := reach_inv h
  obtain ⟨x, x1, x2⟩ := (inv.own t i).1 (by rw [ht]; rfl)
  obtain ⟨y, y1, y2⟩ := (inv.own t' i').1 (by rw [ht']; rfl)
  have hii : i ≠ i' := by
    rintro rfl
    rw [x1] at y1; simp at y1; subst y1
    rw [x2] at y2; simp at y2; exact hne y2
  refine ⟨hii, ?_⟩
  rintro rfl
  obtain ⟨z, z1, z2⟩ := inv.file t i f (by rw [ht]; rfl)
  obtain ⟨w, w1, w2⟩ := inv.file t' i' f (by rw [ht']; rfl)
  exact hii (inv.inj i i' z w f z1 w1 z2 w2)

/-! ## C25 -/

theorem unlockMain_safe {s : St} (inv : Inv s) {t : Nat} (hm : (s.pc t).inMain = true) (pc ev) :
    unlockMain s t pc ev ≠ .ub ∧ unlockMain s t pc ev ≠ .blocked := by
  unfold unlockMain
  rw [if_pos ((inv.main t).2 hm)]
  simp

theorem unlockHandle_safe {s : St} (inv : Inv s) {t i : Nat} (hm : (s.pc t).owned = some i) (pc) :
    unlockHandle s t i pc ≠ .ub ∧ unlockHandle s t i pc ≠ .blocked := by
  obtain ⟨x, x1, x2⟩ := (inv.own t i).1 hm
  unfold unlockHandle
  rw [x1]
  simp only
  rw [if_pos x2]
  simp

theorem held_open {s : St} (inv : Inv s) {t i f : Nat} (ht : (s.pc t).uses = some (i, f)) :
    s.files f ≠ none := by
  obtain ⟨x, x1, x2⟩ := inv.file t i f ht
  exact (inv.opn i x f x1 x2).1

/-- C25, first part. In every reachable state, however many calls that close idle files are
under way, the file of a thread that uses a handle is open. -/
theorem c25_held_file_is_open {content : Bytes} {s : St} {tr : List Ev} (h : Reach content s tr)
    {t i f : Nat} (ht : s.pc t = .hold i f) : s.files f ≠ none :=
  held_open (reach_inv h) (i := i) (by rw [ht]; rfl)

/-- C25, second part. No transition that is possible in a reachable state is undefined
behaviour: no use of a closed file, no closing of a closed file, no unlocking of a mutex by
a thread that does not own it, no access behind the array of handles. -/
theorem c25_no_undefined_behaviour {content : Bytes} {s : St} {tr : List Ev}
    (h : Reach content s tr) (t : Nat) (a : Act) : step content s t a ≠ .ub := by
  have inv := reach_inv h
  cases hpc : s.pc t with
  | accLock => cases a <;> simp only [step, hpc, ne_eq, reduceCtorEq, not_false_eq_true]
               unfold lockMain; split <;> simp
  | retLock => cases a <;> simp only [step, hpc, ne_eq, reduceCtorEq, not_false_eq_true]
               unfold lockMain; split <;> simp
  | killLock => cases a <;> simp only [step, hpc, ne_eq, reduceCtorEq, not_false_eq_true]
                unfold lockMain; split <;> simp
  | idle => cases a <;> simp [step, hpc]
  | accScan i =>
    cases a <;> simp only [step, hpc, ne_eq, reduceCtorEq, not_false_eq_true]
    split
    · simp
    · unfold tryLock; split <;> simp
  | killScan i =>
    cases a <;> simp only [step, hpc, ne_eq, reduceCtorEq, not_false_eq_true]
    split
    · simp
    · unfold tryLock; split <;> simp
  | accTry i =>
    cases a <;> simp only [step, hpc, ne_eq, reduceCtorEq, not_false_eq_true]
    obtain ⟨x, x1, x2⟩ := (inv.own t i).1 (by rw [hpc]; rfl)
    rw [x1]
    simp only
    split
    · simp
    · split <;> simp [openFile]
  | killTry i =>
    cases a <;> simp only [step, hpc, ne_eq, reduceCtorEq, not_false_eq_true]
    obtain ⟨x, x1, x2⟩ := (inv.own t i).1 (by rw [hpc]; rfl)
    rw [x1]
    simp only
    split
    · simp
    · rename_i f hf
      have := (inv.opn i x f x1 hf).1
      split
      · rename_i e; exact absurd e this
      · simp
  | accUndo i =>
    cases a <;> simp only [step, hpc, ne_eq, reduceCtorEq, not_false_eq_true]
    exact (unlockHandle_safe inv (by rw [hpc]; rfl) _).1
  | retUnlock i f =>
    cases a <;> simp only [step, hpc, ne_eq, reduceCtorEq, not_false_eq_true]
    exact (unlockHandle_safe inv (by rw [hpc]; rfl) _).1
  | killUndo i =>
    cases a <;> simp only [step, hpc, ne_eq, reduceCtorEq, not_false_eq_true]
    exact (unlockHandle_safe inv (by rw [hpc]; rfl) _).1
  | accGot i f =>
    cases a <;> simp only [step, hpc, ne_eq, reduceCtorEq, not_false_eq_true]
    exact (unlockMain_safe inv (by rw [hpc]; rfl) _ _).1
  | accFail =>
    cases a <;> simp only [step, hpc, ne_eq, reduceCtorEq, not_false_eq_true]
    exact (unlockMain_safe inv (by rw [hpc]; rfl) _ _).1
  | retMain =>
    cases a <;> simp only [step, hpc, ne_eq, reduceCtorEq, not_false_eq_true]
    exact (unlockMain_safe inv (by rw [hpc]; rfl) _ _).1
  | killMain =>
    cases a <;> simp only [step, hpc, ne_eq, reduceCtorEq, not_false_eq_true]
    exact (unlockMain_safe inv (by rw [hpc]; rfl) _ _).1
  | accNew => cases a <;> simp [step, hpc]
  | accOpen i =>
    cases a <;> simp only [step, hpc, ne_eq, reduceCtorEq, not_false_eq_true]
    obtain ⟨x, x1, _⟩ := inv.fresh t i (by rw [hpc]; rfl)
    rw [x1]
    simp only
    split <;> simp [openFile]
  | accNewLock i f =>
    cases a <;> simp only [step, hpc, ne_eq, reduceCtorEq, not_false_eq_true]
    obtain ⟨x, x1, x2, _⟩ := inv.fresh t i (by rw [hpc]; rfl)
    rw [x1]
    simp only [x2]
    simp
  | hold i f =>
    have ho := held_open inv (t := t) (i := i) (f := f) (by rw [hpc]; rfl)
    cases a <;> simp only [step, hpc, ne_eq, reduceCtorEq, not_false_eq_true]
    · split
      · rename_i e; exact absurd e ho
      · simp
    · split
      · rename_i e; exact absurd e ho
      · simp

/-! ## C23 -/

/-- A thread changes only its own control state. -/
theorem step_other {content : Bytes} {s s' : St} {t u : Nat} {a : Act} {ev : Option Ev}
    (hs : step content s t a = .ok s' ev) (hu : u ≠ t) : s'.pc u = s.pc u := by
  cases hpc : s.pc t with
  | hold j g =>
    cases a <;> simp only [step, hpc] at hs <;> try contradiction
    · simp only [Out.ok.injEq] at hs; rw [← hs.1]; exact upd_other _ _ hu
    · split at hs
      · contradiction
      · simp only [Out.ok.injEq] at hs; rw [← hs.1]
    · split at hs
      · contradiction
      · simp only [Out.ok.injEq] at hs; rw [← hs.1]
  | killTry j =>
    cases a <;> simp only [step, hpc] at hs <;> try contradiction
    split at hs
    · contradiction
    · split at hs
      · simp only [Out.ok.injEq] at hs; rw [← hs.1]; exact upd_other _ _ hu
      · split at hs
        · contradiction
        · simp only [Out.ok.injEq] at hs; rw [← hs.1]; exact upd_other _ _ hu
  | accTry j =>
    cases a <;> simp only [step, hpc] at hs <;> try contradiction
    split at hs
    · contradiction
    · split at hs
      · simp only [Out.ok.injEq] at hs; rw [← hs.1]; exact upd_other _ _ hu
      · split at hs
        · unfold openFile at hs; simp only [Out.ok.injEq] at hs; rw [← hs.1]
          exact upd_other _ _ hu
        · simp only [Out.ok.injEq] at hs; rw [← hs.1]; exact upd_other _ _ hu
  | accOpen j =>
    cases a <;> simp only [step, hpc] at hs <;> try contradiction
    split at hs
    · contradiction
    · split at hs
      · unfold openFile at hs; simp only [Out.ok.injEq] at hs; rw [← hs.1]
        exact upd_other _ _ hu
      · simp only [Out.ok.injEq] at hs; rw [← hs.1]; exact upd_other _ _ hu
  | accNewLock j g =>
    cases a <;> simp only [step, hpc] at hs <;> try contradiction
    split at hs
    · contradiction
    · split at hs
      · simp only [Out.ok.injEq] at hs; rw [← hs.1]; exact upd_other _ _ hu
      · contradiction
  | accScan j | killScan j =>
    cases a <;> simp only [step, hpc] at hs <;> try contradiction
    split at hs
    · simp only [Out.ok.injEq] at hs; rw [← hs.1]; exact upd_other _ _ hu
    · unfold tryLock at hs
      split at hs <;> (simp only [Out.ok.injEq] at hs; rw [← hs.1]; exact upd_other _ _ hu)
  | idle =>
    cases a <;> simp only [step, hpc] at hs <;> try contradiction
    all_goals (simp only [Out.ok.injEq] at hs; rw [← hs.1]; exact upd_other _ _ hu)
  | accNew =>
    cases a <;> simp only [step, hpc] at hs <;> try contradiction
    simp only [Out.ok.injEq] at hs; rw [← hs.1]; exact upd_other _ _ hu
  | accLock | retLock | killLock =>
    cases a <;> simp only [step, hpc] at hs <;> try contradiction
    unfold lockMain at hs; split at hs
    · simp only [Out.ok.injEq] at hs; rw [← hs.1]; exact upd_other _ _ hu
    · contradiction
  | accUndo | retUnlock | killUndo =>
    cases a <;> simp only [step, hpc] at hs <;> try contradiction
    unfold unlockHandle at hs; split at hs
    · contradiction
    · split at hs
      · simp only [Out.ok.injEq] at hs; rw [← hs.1]; exact upd_other _ _ hu
      · contradiction
  | accGot | accFail | retMain | killMain =>
    cases a <;> simp only [step, hpc] at hs <;> try contradiction
    unfold unlockMain at hs; split at hs
    · simp only [Out.ok.injEq] at hs; rw [← hs.1]; exact upd_other _ _ hu
    · contradiction

/-- A transition of `t` leaves the position of every file alone that another thread uses. -/
theorem step_files {content : Bytes} {s s' : St} {t u i f : Nat} {a : Act} {ev : Option Ev}
    (inv : Inv s) (hs : step content s t a = .ok s' ev) (hu : u ≠ t) (hh : s.pc u = .hold i f) :
    s'.files f = s.files f := by
  obtain ⟨y, y1, y2⟩ := (inv.own u i).1 (by rw [hh]; rfl)
  obtain ⟨z, z1, z2⟩ := inv.file u i f (by rw [hh]; rfl)
  rw [y1] at z1; simp at z1; subst z1
  have hlt := (inv.opn i y f y1 z2).2
  have hdiff : ∀ (j : Nat) (hd : Handle) (g : Nat), s.handles[j]? = some hd → hd.owner = some t →
      hd.file = some g → f ≠ g := by
    rintro j hd g h1 h2 h3 rfl
    have := inv.inj i j y hd f y1 h1 z2 h3
    subst this
    rw [y1] at h1; simp at h1; subst h1
    rw [y2] at h2; simp at h2; exact hu h2
  cases hpc : s.pc t with
  | hold j g =>
    obtain ⟨x, x1, x2⟩ := (inv.own t j).1 (by rw [hpc]; rfl)
    obtain ⟨w, w1, w2⟩ := inv.file t j g (by rw [hpc]; rfl)
    rw [x1] at w1; simp at w1; subst w1
    have hne := hdiff j x g x1 x2 w2
    cases a <;> simp only [step, hpc] at hs <;> try contradiction
    · simp only [Out.ok.injEq] at hs; rw [← hs.1]; rfl
    · split at hs
      · contradiction
      · simp only [Out.ok.injEq] at hs; rw [← hs.1]; exact upd_other _ _ hne
    · split at hs
      · contradiction
      · simp only [Out.ok.injEq] at hs; rw [← hs.1]; exact upd_other _ _ hne
  | killTry j =>
    obtain ⟨x, x1, x2⟩ := (inv.own t j).1 (by rw [hpc]; rfl)
    cases a <;> simp only [step, hpc] at hs <;> try contradiction
    rw [x1] at hs
    simp only at hs
    split at hs
    · simp only [Out.ok.injEq] at hs; rw [← hs.1]; rfl
    · rename_i g hg
      split at hs
      · contradiction
      · simp only [Out.ok.injEq] at hs; rw [← hs.1]
        exact upd_other _ _ (hdiff j x g x1 x2 hg)
  | accTry j =>
    cases a <;> simp only [step, hpc] at hs <;> try contradiction
    split at hs
    · contradiction
    · split at hs
      · simp only [Out.ok.injEq] at hs; rw [← hs.1]; rfl
      · split at hs
        · unfold openFile at hs; simp only [Out.ok.injEq] at hs; rw [← hs.1]
          exact upd_other _ _ (by omega)
        · simp only [Out.ok.injEq] at hs; rw [← hs.1]; rfl
  | accOpen j =>
    cases a <;> simp only [step, hpc] at hs <;> try contradiction
    split at hs
    · contradiction
    · split at hs
      · unfold openFile at hs; simp only [Out.ok.injEq] at hs; rw [← hs.1]
        exact upd_other _ _ (by omega)
      · simp only [Out.ok.injEq] at hs; rw [← hs.1]; rfl
  | accNewLock j g =>
    cases a <;> simp only [step, hpc] at hs <;> try contradiction
    split at hs
    · contradiction
    · split at hs
      · simp only [Out.ok.injEq] at hs; rw [← hs.1]
      · contradiction
  | accScan j =>
    cases a <;> simp only [step, hpc] at hs <;> try contradiction
    split at hs
    · simp only [Out.ok.injEq] at hs; rw [← hs.1]; rfl
    · unfold tryLock at hs; split at hs <;> (simp only [Out.ok.injEq] at hs; rw [← hs.1]; try rfl)
  | killScan j =>
    cases a <;> simp only [step, hpc] at hs <;> try contradiction
    split at hs
    · simp only [Out.ok.injEq] at hs; rw [← hs.1]; rfl
    · unfold tryLock at hs; split at hs <;> (simp only [Out.ok.injEq] at hs; rw [← hs.1]; try rfl)
  | idle =>
    cases a <;> simp only [step, hpc] at hs <;> try contradiction
    all_goals (simp only [Out.ok.injEq] at hs; rw [← hs.1]; rfl)
  | accNew =>
    cases a <;> simp only [step, hpc] at hs <;> try contradiction
    simp only [Out.ok.injEq] at hs; rw [← hs.1]
  | accLock | retLock | killLock =>
    cases a <;> simp only [step, hpc] at hs <;> try contradiction
    unfold lockMain at hs; split at hs
    · simp only [Out.ok.injEq] at hs; rw [← hs.1]
    · contradiction
  | accUndo | retUnlock | killUndo =>
    cases a <;> simp only [step, hpc] at hs <;> try contradiction
    unfold unlockHandle at hs; split at hs
    · contradiction
    · split at hs
      · simp only [Out.ok.injEq] at hs; rw [← hs.1]
      · contradiction
  | accGot | accFail | retMain | killMain =>
    cases a <;> simp only [step, hpc] at hs <;> try contradiction
    unfold unlockMain at hs; split at hs
    · simp only [Out.ok.injEq] at hs; rw [← hs.1]
    · contradiction

/-- Position that thread `t` expects its handle to have after an event, if it knows it: where
it has sought to plus what it has read since then. Events of other threads do not count. -/
def track (t : Nat) (p : Option Nat) : Ev → Option Nat
  | .sought u q => if u = t then some q else p
  | .got u _ b => if u = t then p.map (· + b.length) else p
  | .acquired u => if u = t then none else p
  | .returned u => if u = t then none else p
  | .failed u => if u = t then none else p
  | .appended _ => p

/-- The position thread `t` expects after a sequence of events. -/
def expected (t : Nat) (tr : List Ev) : Option Nat := tr.foldl (track t) none

theorem expected_append (t : Nat) (tr : List Ev) (ev : Option Ev) :
    expected t (tr ++ ev.toList) = match ev with
      | none => expected t tr
      | some e => track t (expected t tr) e := by
  cases ev <;> simp [expected]

/-- The events of a transition belong to the thread that makes it. -/
def Ev.thread : Ev → Nat
  | .sought u _ | .got u _ _ | .acquired u | .returned u | .failed u | .appended u => u

theorem step_event {content : Bytes} {s s' : St} {t : Nat} {a : Act} {e : Ev}
    (hs : step content s t a = .ok s' (some e)) : e.thread = t ∧
      ((∃ i f, s.pc t = .hold i f) ∨ e = .acquired t ∨ e = .failed t ∨ e = .appended t) := by
  cases hpc : s.pc t with
  | hold j g =>
    refine ⟨?_, .inl ⟨j, g, rfl⟩⟩
    cases a <;> simp only [step, hpc] at hs <;> try contradiction
    · simp only [Out.ok.injEq, Option.some.injEq] at hs; rw [← hs.2]; rfl
    · split at hs
      · contradiction
      · simp only [Out.ok.injEq, Option.some.injEq] at hs; rw [← hs.2]; rfl
    · split at hs
      · contradiction
      · simp only [Out.ok.injEq, Option.some.injEq] at hs; rw [← hs.2]; rfl
  | killTry j =>
    cases a <;> simp only [step, hpc] at hs <;> try contradiction
    split at hs
    · contradiction
    · split at hs
      · simp at hs
      · split at hs
        · contradiction
        · simp at hs
  | accTry j =>
    cases a <;> simp only [step, hpc] at hs <;> try contradiction
    split at hs
    · contradiction
    · split at hs
      · simp at hs
      · split at hs
        · simp [openFile] at hs
        · simp at hs
  | accOpen j =>
    cases a <;> simp only [step, hpc] at hs <;> try contradiction
    split at hs
    · contradiction
    · split at hs
      · simp [openFile] at hs
      · simp at hs
  | accNewLock j g =>
    cases a <;> simp only [step, hpc] at hs <;> try contradiction
    split at hs
    · contradiction
    · split at hs
      · simp at hs
      · contradiction
  | accScan j | killScan j =>
    cases a <;> simp only [step, hpc] at hs <;> try contradiction
    split at hs
    · simp at hs
    · unfold tryLock at hs; split at hs <;> simp [St.goto] at hs
  | idle =>
    cases a <;> simp only [step, hpc] at hs <;> try contradiction
    all_goals simp at hs
  | accNew =>
    cases a <;> simp only [step, hpc] at hs <;> try contradiction
    simp only [Out.ok.injEq, Option.some.injEq] at hs; rw [← hs.2]; simp [Ev.thread]
  | accLock | retLock | killLock =>
    cases a <;> simp only [step, hpc] at hs <;> try contradiction
    unfold lockMain at hs; split at hs <;> simp at hs
  | accUndo | retUnlock | killUndo =>
    cases a <;> simp only [step, hpc] at hs <;> try contradiction
    unfold unlockHandle at hs; split at hs
    · contradiction
    · split at hs <;> simp at hs
  | accGot | accFail | retMain | killMain =>
    cases a <;> simp only [step, hpc] at hs <;> try contradiction
    unfold unlockMain at hs; split at hs
    · simp only [Out.ok.injEq, Option.some.injEq, reduceCtorEq, and_false] at hs
      try (rw [← hs.2]; simp [Ev.thread])
    · contradiction

theorem track_other {t : Nat} {p : Option Nat} {e : Ev} (h : e.thread ≠ t) : track t p e = p := by
  cases e <;> simp only [Ev.thread] at h <;> simp [track, h]

/-- What a thread expects is the position of its file. -/
theorem reach_expected {content : Bytes} {s : St} {tr : List Ev} (h : Reach content s tr) :
    ∀ t p, expected t tr = some p → ∃ i f, s.pc t = .hold i f ∧ s.files f = some p := by
  induction h with
  | init => intro t p h; simp [expected] at h
  | step hr hs ih =>
    rename_i s s' tr u a ev
    intro t p hp
    have inv := reach_inv hr
    rw [expected_append] at hp
    by_cases hut : t = u
    · subst hut
      cases ev with
      | none =>
        simp only at hp
        obtain ⟨i, f, h1, h2⟩ := ih t p hp
        cases a <;> simp only [step, h1] at hs <;> try contradiction
        · simp at hs
        · split at hs <;> simp at hs
        · split at hs <;> simp at hs
      | some e =>
        simp only at hp
        obtain ⟨e1, e2⟩ := step_event hs
        rcases e2 with ⟨i, f, h1⟩ | rfl | rfl | rfl
        · cases a <;> simp only [step, h1] at hs <;> try contradiction
          · simp only [Out.ok.injEq, Option.some.injEq] at hs
            rw [← hs.2] at hp; simp [track] at hp
          · split at hs
            · contradiction
            · simp only [Out.ok.injEq, Option.some.injEq] at hs
              rw [← hs.2] at hp; simp [track] at hp
              rw [← hs.1]
              exact ⟨i, f, h1, by simp [hp]⟩
          · split at hs
            · contradiction
            · rename_i q hq
              simp only [Out.ok.injEq, Option.some.injEq] at hs
              rw [← hs.2] at hp
              simp only [track, if_true, Option.map_eq_some_iff] at hp
              obtain ⟨p', p1, p2⟩ := hp
              obtain ⟨i', f', k1, k2⟩ := ih t p' p1
              rw [h1] at k1; simp at k1
              obtain ⟨rfl, rfl⟩ := k1
              rw [hq] at k2; simp at k2; subst k2
              rw [← hs.1]
              exact ⟨i, f, h1, by simp [← p2]⟩
        · simp [track] at hp
        · simp [track] at hp
        · simp only [track] at hp
          obtain ⟨i, f, h1, h2⟩ := ih t p hp
          cases a <;> simp only [step, h1] at hs <;> try contradiction
          · simp at hs
          · split at hs <;> simp at hs
          · split at hs <;> simp at hs
    · have hp' : expected t tr = some p := by
        cases ev with
        | none => exact hp
        | some e =>
          simp only at hp
          rw [track_other (by rw [(step_event hs).1]; exact fun e => hut e.symm)] at hp
          exact hp
      obtain ⟨i, f, h1, h2⟩ := ih t p hp'
      refine ⟨i, f, by rw [step_other hs hut]; exact h1, ?_⟩
      rw [step_files inv hs hut h1]
      exact h2

/-- C23. In every execution, whatever the other threads do: when a thread that has sought to a
position (and perhaps read from there) reads `n` bytes, it gets the next `n` bytes of the
file at the position it expects (fewer only at the end of the file). -/
theorem c23_reads {content : Bytes} {s s' : St} {tr : List Ev} (h : Reach content s tr)
    {t : Nat} {a : Act} {u n : Nat} {bytes : Bytes}
    (hs : step content s t a = .ok s' (some (.got u n bytes))) :
    u = t ∧ ∀ p, expected u tr = some p → bytes = (content.drop p).take n := by
  obtain ⟨e1, e2⟩ := step_event hs
  simp only [Ev.thread] at e1
  subst e1
  refine ⟨rfl, fun p hp => ?_⟩
  obtain ⟨i, f, h1, h2⟩ := reach_expected h u p hp
  cases a <;> simp only [step, h1] at hs <;> try contradiction
  · simp at hs
  · split at hs <;> simp at hs
  · rw [h2] at hs
    simp only [Out.ok.injEq, Option.some.injEq, Ev.got.injEq, true_and] at hs
    rw [← hs.2.2, ← hs.2.1]

/-! ## C24 -/

/-- The thread is inside of an access call, uses a handle, or is inside of a return call. -/
def PC.busy : PC → Bool
  | .idle | .killLock | .killScan _ | .killTry _ | .killUndo _ | .killMain => false
  | _ => true

/-- Executions in which every `fopen` succeeds, with all states they went through (the last one
first). -/
inductive Exec (content : Bytes) : List St → Prop
  | init : Exec content [init]
  | step {s s' : St} {hist : List St} {t : Nat} {a : Act} {ev : Option Ev} :
      Exec content (s :: hist) → step content s t a = .ok s' ev → a ≠ .tick false →
      Exec content (s' :: s :: hist)

/-- All handles below `n` are locked. -/
def LockedBelow (s : St) (n : Nat) : Prop :=
  ∀ j, j < n → ∃ h u, s.handles[j]? = some h ∧ h.owner = some u

structure Scan (s : St) : Prop where
  scan : ∀ t i, s.pc t = .accScan i → LockedBelow s i
  new : ∀ t, s.pc t = .accNew → LockedBelow s s.handles.length
  undo : ∀ t i, s.pc t ≠ .accUndo i

/-- What a transition does to the handles: nothing unless the thread is in the protected
section (or has just got a handle). -/
theorem step_handles {content : Bytes} {s s' : St} {t : Nat} {a : Act} {ev : Option Ev}
    (hs : step content s t a = .ok s' ev) (hm : (s.pc t).inMain = false) :
    s'.handles = s.handles := by
  cases hpc : s.pc t <;> rw [hpc] at hm <;> simp [PC.inMain] at hm
  · cases a <;> simp only [step, hpc] at hs <;> try contradiction
    all_goals (simp only [Out.ok.injEq] at hs; rw [← hs.1]; rfl)
  · cases a <;> simp only [step, hpc] at hs <;> try contradiction
    unfold lockMain at hs; split at hs
    · simp only [Out.ok.injEq] at hs; rw [← hs.1]
    · contradiction
  · cases a <;> simp only [step, hpc] at hs <;> try contradiction
    · simp only [Out.ok.injEq] at hs; rw [← hs.1]; rfl
    · split at hs
      · contradiction
      · simp only [Out.ok.injEq] at hs; rw [← hs.1]
    · split at hs
      · contradiction
      · simp only [Out.ok.injEq] at hs; rw [← hs.1]
  · cases a <;> simp only [step, hpc] at hs <;> try contradiction
    unfold lockMain at hs; split at hs
    · simp only [Out.ok.injEq] at hs; rw [← hs.1]
    · contradiction
  · cases a <;> simp only [step, hpc] at hs <;> try contradiction
    unfold lockMain at hs; split at hs
    · simp only [Out.ok.injEq] at hs; rw [← hs.1]
    · contradiction

theorem other_inMain {s : St} (inv : Inv s) {t u : Nat} (ht : (s.pc t).inMain = true)
    (hu : u ≠ t) : (s.pc u).inMain = false := by
  have a := (inv.main t).2 ht
  cases hc : (s.pc u).inMain with
  | false => rfl
  | true =>
    have b := (inv.main u).2 hc
    rw [a] at b; simp at b; exact absurd b.symm hu

theorem step_scan {content : Bytes} {s s' : St} {t : Nat} {a : Act} {ev : Option Ev} (inv : Inv s)
    (sc : Scan s) (hs : step content s t a = .ok s' ev) (hok : a ≠ .tick false) : Scan s' := by
  have hundo : ∀ u i, s'.pc u ≠ .accUndo i := by
    intro u i
    by_cases hu : u = t
    · subst hu
      intro hc
      cases hpc : s.pc u with
      | accTry j =>
        cases a <;> simp only [step, hpc] at hs <;> try contradiction
        rename_i ok
        have : ok = true := by cases ok <;> simp at hok ⊢
        subst this
        split at hs
        · contradiction
        · split at hs
          · simp only [Out.ok.injEq] at hs; rw [← hs.1] at hc; simp [St.goto] at hc
          · simp only [if_true, openFile, Out.ok.injEq] at hs; rw [← hs.1] at hc; simp at hc
      | hold j g =>
        cases a <;> simp only [step, hpc] at hs <;> try contradiction
        · simp only [Out.ok.injEq] at hs; rw [← hs.1] at hc; simp [St.goto] at hc
        · split at hs
          · contradiction
          · simp only [Out.ok.injEq] at hs; rw [← hs.1] at hc; simp [hpc] at hc
        · split at hs
          · contradiction
          · simp only [Out.ok.injEq] at hs; rw [← hs.1] at hc; simp [hpc] at hc
      | killTry j =>
        cases a <;> simp only [step, hpc] at hs <;> try contradiction
        split at hs
        · contradiction
        · split at hs
          · simp only [Out.ok.injEq] at hs; rw [← hs.1] at hc; simp [St.goto] at hc
          · split at hs
            · contradiction
            · simp only [Out.ok.injEq] at hs; rw [← hs.1] at hc; simp at hc
      | accOpen j =>
        cases a <;> simp only [step, hpc] at hs <;> try contradiction
        split at hs
        · contradiction
        · split at hs
          · simp only [openFile, Out.ok.injEq] at hs; rw [← hs.1] at hc; simp at hc
          · simp only [Out.ok.injEq] at hs; rw [← hs.1] at hc; simp [St.goto] at hc
      | accNewLock j g =>
        cases a <;> simp only [step, hpc] at hs <;> try contradiction
        split at hs
        · contradiction
        · split at hs
          · simp only [Out.ok.injEq] at hs; rw [← hs.1] at hc; simp at hc
          · contradiction
      | accScan j | killScan j =>
        cases a <;> simp only [step, hpc] at hs <;> try contradiction
        split at hs
        · simp only [Out.ok.injEq] at hs; rw [← hs.1] at hc; simp [St.goto] at hc
        · unfold tryLock at hs
          split at hs <;> (simp only [Out.ok.injEq] at hs; rw [← hs.1] at hc; simp [St.goto] at hc)
      | idle =>
        cases a <;> simp only [step, hpc] at hs <;> try contradiction
        all_goals (simp only [Out.ok.injEq] at hs; rw [← hs.1] at hc; simp [St.goto] at hc)
      | accNew =>
        cases a <;> simp only [step, hpc] at hs <;> try contradiction
        simp only [Out.ok.injEq] at hs; rw [← hs.1] at hc; simp at hc
      | accLock | retLock | killLock =>
        cases a <;> simp only [step, hpc] at hs <;> try contradiction
        unfold lockMain at hs; split at hs
        · simp only [Out.ok.injEq] at hs; rw [← hs.1] at hc; simp at hc
        · contradiction
      | accUndo j => exact sc.undo u j hpc
      | retUnlock | killUndo =>
        cases a <;> simp only [step, hpc] at hs <;> try contradiction
        unfold unlockHandle at hs; split at hs
        · contradiction
        · split at hs
          · simp only [Out.ok.injEq] at hs; rw [← hs.1] at hc; simp at hc
          · contradiction
      | accGot | accFail | retMain | killMain =>
        cases a <;> simp only [step, hpc] at hs <;> try contradiction
        unfold unlockMain at hs; split at hs
        · simp only [Out.ok.injEq] at hs; rw [← hs.1] at hc; simp at hc
        · contradiction
    · rw [step_other hs hu]; exact sc.undo u i
  have hother : ∀ u, u ≠ t → (s'.pc u).inMain = true → s'.handles = s.handles := by
    intro u hu hm
    rw [step_other hs hu] at hm
    exact step_handles hs (other_inMain inv hm (fun e => hu e.symm))
  refine ⟨?_, ?_, hundo⟩
  · intro u i hc
    by_cases hu : u = t
    · subst hu
      cases hpc : s.pc u with
      | accLock =>
        cases a <;> simp only [step, hpc] at hs <;> try contradiction
        unfold lockMain at hs; split at hs
        · simp only [Out.ok.injEq] at hs; rw [← hs.1] at hc; simp at hc; subst hc
          intro j hj; omega
        · contradiction
      | accScan j =>
        cases a <;> simp only [step, hpc] at hs <;> try contradiction
        split at hs
        · simp only [Out.ok.injEq] at hs; rw [← hs.1] at hc; simp [St.goto] at hc
        · rename_i hd hi
          unfold tryLock at hs
          split at hs
          · simp only [Out.ok.injEq] at hs; rw [← hs.1] at hc; simp at hc
          · rename_i w hw
            simp only [Out.ok.injEq] at hs; rw [← hs.1] at hc; simp [St.goto] at hc; subst hc
            rw [← hs.1]
            intro k hk
            by_cases hkj : k = j
            · subst hkj; exact ⟨hd, w, hi, hw⟩
            · exact sc.scan u j hpc k (by omega)
      | accUndo j => exact absurd hpc (sc.undo u j)
      | accTry j =>
        cases a <;> simp only [step, hpc] at hs <;> try contradiction
        split at hs
        · contradiction
        · split at hs
          · simp only [Out.ok.injEq] at hs; rw [← hs.1] at hc; simp [St.goto] at hc
          · split at hs
            · simp only [openFile, Out.ok.injEq] at hs; rw [← hs.1] at hc; simp at hc
            · simp only [Out.ok.injEq] at hs; rw [← hs.1] at hc; simp [St.goto] at hc
      | hold j g =>
        cases a <;> simp only [step, hpc] at hs <;> try contradiction
        · simp only [Out.ok.injEq] at hs; rw [← hs.1] at hc; simp [St.goto] at hc
        · split at hs
          · contradiction
          · simp only [Out.ok.injEq] at hs; rw [← hs.1] at hc; simp [hpc] at hc
        · split at hs
          · contradiction
          · simp only [Out.ok.injEq] at hs; rw [← hs.1] at hc; simp [hpc] at hc
      | killTry j =>
        cases a <;> simp only [step, hpc] at hs <;> try contradiction
        split at hs
        · contradiction
        · split at hs
          · simp only [Out.ok.injEq] at hs; rw [← hs.1] at hc; simp [St.goto] at hc
          · split at hs
            · contradiction
            · simp only [Out.ok.injEq] at hs; rw [← hs.1] at hc; simp at hc
      | accOpen j =>
        cases a <;> simp only [step, hpc] at hs <;> try contradiction
        split at hs
        · contradiction
        · split at hs
          · simp only [openFile, Out.ok.injEq] at hs; rw [← hs.1] at hc; simp at hc
          · simp only [Out.ok.injEq] at hs; rw [← hs.1] at hc; simp [St.goto] at hc
      | accNewLock j g =>
        cases a <;> simp only [step, hpc] at hs <;> try contradiction
        split at hs
        · contradiction
        · split at hs
          · simp only [Out.ok.injEq] at hs; rw [← hs.1] at hc; simp at hc
          · contradiction
      | killScan j =>
        cases a <;> simp only [step, hpc] at hs <;> try contradiction
        split at hs
        · simp only [Out.ok.injEq] at hs; rw [← hs.1] at hc; simp [St.goto] at hc
        · unfold tryLock at hs
          split at hs <;> (simp only [Out.ok.injEq] at hs; rw [← hs.1] at hc; simp [St.goto] at hc)
      | idle =>
        cases a <;> simp only [step, hpc] at hs <;> try contradiction
        all_goals (simp only [Out.ok.injEq] at hs; rw [← hs.1] at hc; simp [St.goto] at hc)
      | accNew =>
        cases a <;> simp only [step, hpc] at hs <;> try contradiction
        simp only [Out.ok.injEq] at hs; rw [← hs.1] at hc; simp at hc
      | retLock | killLock =>
        cases a <;> simp only [step, hpc] at hs <;> try contradiction
        unfold lockMain at hs; split at hs
        · simp only [Out.ok.injEq] at hs; rw [← hs.1] at hc; simp at hc
        · contradiction
      | retUnlock | killUndo =>
        cases a <;> simp only [step, hpc] at hs <;> try contradiction
        unfold unlockHandle at hs; split at hs
        · contradiction
        · split at hs
          · simp only [Out.ok.injEq] at hs; rw [← hs.1] at hc; simp at hc
          · contradiction
      | accGot | accFail | retMain | killMain =>
        cases a <;> simp only [step, hpc] at hs <;> try contradiction
        unfold unlockMain at hs; split at hs
        · simp only [Out.ok.injEq] at hs; rw [← hs.1] at hc; simp at hc
        · contradiction
    · have hh := hother u hu (by rw [hc]; rfl)
      rw [step_other hs hu] at hc
      intro j hj
      obtain ⟨x, w, x1, x2⟩ := sc.scan u i hc j hj
      exact ⟨x, w, by rw [hh]; exact x1, x2⟩
  · intro u hc
    by_cases hu : u = t
    · subst hu
      cases hpc : s.pc u with
      | accScan j =>
        cases a <;> simp only [step, hpc] at hs <;> try contradiction
        split at hs
        · rename_i hi
          simp only [Out.ok.injEq] at hs
          rw [← hs.1]
          have hlen : s.handles.length ≤ j := by
            rw [List.getElem?_eq_none_iff] at hi; exact hi
          intro k hk
          exact sc.scan u j hpc k (by simp only [St.goto] at hk; omega)
        · unfold tryLock at hs
          split at hs <;> (simp only [Out.ok.injEq] at hs; rw [← hs.1] at hc; simp [St.goto] at hc)
      | accUndo j => exact absurd hpc (sc.undo u j)
      | accTry j =>
        cases a <;> simp only [step, hpc] at hs <;> try contradiction
        split at hs
        · contradiction
        · split at hs
          · simp only [Out.ok.injEq] at hs; rw [← hs.1] at hc; simp [St.goto] at hc
          · split at hs
            · simp only [openFile, Out.ok.injEq] at hs; rw [← hs.1] at hc; simp at hc
            · simp only [Out.ok.injEq] at hs; rw [← hs.1] at hc; simp [St.goto] at hc
      | hold j g =>
        cases a <;> simp only [step, hpc] at hs <;> try contradiction
        · simp only [Out.ok.injEq] at hs; rw [← hs.1] at hc; simp [St.goto] at hc
        · split at hs
          · contradiction
          · simp only [Out.ok.injEq] at hs; rw [← hs.1] at hc; simp [hpc] at hc
        · split at hs
          · contradiction
          · simp only [Out.ok.injEq] at hs; rw [← hs.1] at hc; simp [hpc] at hc
      | killTry j =>
        cases a <;> simp only [step, hpc] at hs <;> try contradiction
        split at hs
        · contradiction
        · split at hs
          · simp only [Out.ok.injEq] at hs; rw [← hs.1] at hc; simp [St.goto] at hc
          · split at hs
            · contradiction
            · simp only [Out.ok.injEq] at hs; rw [← hs.1] at hc; simp at hc
      | accOpen j =>
        cases a <;> simp only [step, hpc] at hs <;> try contradiction
        split at hs
        · contradiction
        · split at hs
          · simp only [openFile, Out.ok.injEq] at hs; rw [← hs.1] at hc; simp at hc
          · simp only [Out.ok.injEq] at hs; rw [← hs.1] at hc; simp [St.goto] at hc
      | accNewLock j g =>
        cases a <;> simp only [step, hpc] at hs <;> try contradiction
        split at hs
        · contradiction
        · split at hs
          · simp only [Out.ok.injEq] at hs; rw [← hs.1] at hc; simp at hc
          · contradiction
      | killScan j =>
        cases a <;> simp only [step, hpc] at hs <;> try contradiction
        split at hs
        · simp only [Out.ok.injEq] at hs; rw [← hs.1] at hc; simp [St.goto] at hc
        · unfold tryLock at hs
          split at hs <;> (simp only [Out.ok.injEq] at hs; rw [← hs.1] at hc; simp [St.goto] at hc)
      | idle =>
        cases a <;> simp only [step, hpc] at hs <;> try contradiction
        all_goals (simp only [Out.ok.injEq] at hs; rw [← hs.1] at hc; simp [St.goto] at hc)
      | accNew =>
        cases a <;> simp only [step, hpc] at hs <;> try contradiction
        simp only [Out.ok.injEq] at hs; rw [← hs.1] at hc; simp at hc
      | accLock | retLock | killLock =>
        cases a <;> simp only [step, hpc] at hs <;> try contradiction
        unfold lockMain at hs; split at hs
        · simp only [Out.ok.injEq] at hs; rw [← hs.1] at hc; simp at hc
        · contradiction
      | retUnlock | killUndo =>
        cases a <;> simp only [step, hpc] at hs <;> try contradiction
        unfold unlockHandle at hs; split at hs
        · contradiction
        · split at hs
          · simp only [Out.ok.injEq] at hs; rw [← hs.1] at hc; simp at hc
          · contradiction
      | accGot | accFail | retMain | killMain =>
        cases a <;> simp only [step, hpc] at hs <;> try contradiction
        unfold unlockMain at hs; split at hs
        · simp only [Out.ok.injEq] at hs; rw [← hs.1] at hc; simp at hc
        · contradiction
    · have hh := hother u hu (by rw [hc]; rfl)
      rw [step_other hs hu] at hc
      intro j hj
      rw [hh] at hj
      obtain ⟨x, w, x1, x2⟩ := sc.new u hc j hj
      exact ⟨x, w, by rw [hh]; exact x1, x2⟩

/-- Only the transition that enlarges the array changes its length. -/
theorem step_length {content : Bytes} {s s' : St} {t : Nat} {a : Act} {ev : Option Ev}
    (hs : step content s t a = .ok s' ev) :
    s'.handles.length = s.handles.length ∨
      (s.pc t = .accNew ∧ s'.handles.length = s.handles.length + 1) := by
  cases hm : (s.pc t).inMain with
  | false => exact .inl (by rw [step_handles hs hm])
  | true =>
    cases hpc : s.pc t with
    | hold | idle | accLock | retLock | killLock => rw [hpc] at hm; simp [PC.inMain] at hm
    | killTry j =>
      left
      cases a <;> simp only [step, hpc] at hs <;> try contradiction
      split at hs
      · contradiction
      · split at hs
        · simp only [Out.ok.injEq] at hs; rw [← hs.1]; rfl
        · split at hs
          · contradiction
          · simp only [Out.ok.injEq] at hs; rw [← hs.1]; simp
    | accTry j =>
      left
      cases a <;> simp only [step, hpc] at hs <;> try contradiction
      split at hs
      · contradiction
      · split at hs
        · simp only [Out.ok.injEq] at hs; rw [← hs.1]; rfl
        · split at hs
          · unfold openFile at hs; simp only [Out.ok.injEq] at hs; rw [← hs.1]; simp
          · simp only [Out.ok.injEq] at hs; rw [← hs.1]; rfl
    | accOpen j =>
      left
      cases a <;> simp only [step, hpc] at hs <;> try contradiction
      split at hs
      · contradiction
      · split at hs
        · unfold openFile at hs; simp only [Out.ok.injEq] at hs; rw [← hs.1]; simp
        · simp only [Out.ok.injEq] at hs; rw [← hs.1]; rfl
    | accNewLock j g =>
      left
      cases a <;> simp only [step, hpc] at hs <;> try contradiction
      split at hs
      · contradiction
      · split at hs
        · simp only [Out.ok.injEq] at hs; rw [← hs.1]; simp
        · contradiction
    | accScan j | killScan j =>
      left
      cases a <;> simp only [step, hpc] at hs <;> try contradiction
      split at hs
      · simp only [Out.ok.injEq] at hs; rw [← hs.1]; rfl
      · unfold tryLock at hs
        split at hs <;> (simp only [Out.ok.injEq] at hs; rw [← hs.1]; simp [St.goto])
    | accNew =>
      right
      cases a <;> simp only [step, hpc] at hs <;> try contradiction
      simp only [Out.ok.injEq] at hs; rw [← hs.1]; simp
    | accUndo | retUnlock | killUndo =>
      left
      cases a <;> simp only [step, hpc] at hs <;> try contradiction
      unfold unlockHandle at hs; split at hs
      · contradiction
      · split at hs
        · simp only [Out.ok.injEq] at hs; rw [← hs.1]; simp
        · contradiction
    | accGot | accFail | retMain | killMain =>
      left
      cases a <;> simp only [step, hpc] at hs <;> try contradiction
      unfold unlockMain at hs; split at hs
      · simp only [Out.ok.injEq] at hs; rw [← hs.1]
      · contradiction

theorem exec_reach {content : Bytes} {l : List St} (h : Exec content l) :
    ∃ s hist tr, l = s :: hist ∧ Reach content s tr ∧ Scan s := by
  induction h with
  | init =>
    refine ⟨_, _, _, rfl, .init, ?_⟩
    constructor <;> simp [init]
  | step _ hs hok ih =>
    obtain ⟨s0, h0, tr, e, hr, sc⟩ := ih
    simp only [List.cons.injEq] at e
    obtain ⟨rfl, rfl⟩ := e
    exact ⟨_, _, _, rfl, .step hr hs, step_scan (reach_inv hr) sc hs hok⟩

/-- The owners of the first `n` handles. -/
theorem owners {s : St} (inv : Inv s) (n : Nat) (h : LockedBelow s n) :
    ∃ ts : List Nat, ts.Nodup ∧ ts.length = n ∧ ∀ u ∈ ts, ∃ j, j < n ∧ (s.pc u).owned = some j := by
  induction n with
  | zero => exact ⟨[], by simp, rfl, by simp⟩
  | succ n ih =>
    obtain ⟨ts, t1, t2, t3⟩ := ih (fun j hj => h j (by omega))
    obtain ⟨x, u, x1, x2⟩ := h n (by omega)
    have ho := (inv.own u n).2 ⟨x, x1, x2⟩
    refine ⟨u :: ts, ?_, by simp [t2], ?_⟩
    · rw [List.nodup_cons]
      refine ⟨fun hu => ?_, t1⟩
      obtain ⟨j, j1, j2⟩ := t3 u hu
      rw [ho] at j2; simp at j2; omega
    · intro v hv
      rcases List.mem_cons.1 hv with rfl | hv
      · exact ⟨n, by omega, ho⟩
      · obtain ⟨j, j1, j2⟩ := t3 v hv
        exact ⟨j, by omega, j2⟩

/-- C24. When no `fopen` fails, the number of handles never exceeds the largest number of
threads that were users at the same time: if there are `n > 0` handles, then in some
earlier state of the execution `n` different threads were accessing, using or returning a
handle at once. -/
theorem c24_handles_are_reused {content : Bytes} {s : St} {hist : List St}
    (h : Exec content (s :: hist)) :
    s.handles = [] ∨ ∃ s' ∈ s :: hist, ∃ ts : List Nat, ts.Nodup ∧
      ts.length = s.handles.length ∧ ∀ u ∈ ts, (s'.pc u).busy = true := by
  generalize hl : s :: hist = l at h
  induction h generalizing s hist with
  | init =>
    simp only [List.cons.injEq] at hl
    obtain ⟨rfl, rfl⟩ := hl
    exact .inl rfl
  | step h0 hs hok ih =>
    rename_i s0 s' hist0 t a ev
    simp only [List.cons.injEq] at hl
    obtain ⟨rfl, rfl⟩ := hl
    rcases step_length hs with hlen | ⟨hpc, hlen⟩
    · rcases ih rfl with he | ⟨s1, m1, ts, t1, t2, t3⟩
      · left
        rw [he] at hlen
        exact List.eq_nil_of_length_eq_zero hlen
      · exact .inr ⟨s1, List.mem_cons_of_mem _ m1, ts, t1, by rw [t2, hlen], t3⟩
    · right
      obtain ⟨s1, h1, tr, e, hr, sc⟩ := exec_reach h0
      simp only [List.cons.injEq] at e
      obtain ⟨rfl, rfl⟩ := e
      have inv := reach_inv hr
      obtain ⟨ts, t1, t2, t3⟩ := owners inv _ (sc.new t hpc)
      refine ⟨s0, by simp, t :: ts, ?_, by simp [t2, hlen], ?_⟩
      · rw [List.nodup_cons]
        refine ⟨fun hu => ?_, t1⟩
        obtain ⟨j, _, j2⟩ := t3 t hu
        rw [hpc] at j2; simp [PC.owned] at j2
      · intro u hu
        rcases List.mem_cons.1 hu with rfl | hu
        · rw [hpc]; rfl
        · obtain ⟨j, _, j2⟩ := t3 u hu
          have hut : u ≠ t := by
            rintro rfl; rw [hpc] at j2; simp [PC.owned] at j2
          have hm := other_inMain inv (t := t) (by rw [hpc]; rfl) hut
          cases hx : s0.pc u <;> rw [hx] at hm j2 <;> simp [PC.inMain, PC.owned] at hm j2 <;> rfl

/-- A schedule that can be executed from the initial state gives a reachable state. -/
theorem run_reach {content : Bytes} {sched : List (Nat × Act)} {s s' : St} {tr tr' : List Ev} {e}
    (hr : Reach content s tr) (h : run content s sched tr = (.ok s' e, tr')) :
    Reach content s' tr' := by
  induction sched generalizing s tr with
  | nil => simp only [run, Prod.mk.injEq, Out.ok.injEq] at h; rw [← h.1.1, ← h.2]; exact hr
  | cons x rest ih =>
    obtain ⟨t, a⟩ := x
    simp only [run] at h
    split at h
    · simp at h
    · simp at h
    · rename_i s1 ev1 hs
      exact ih (.step hr hs) h

/-- C24, the limit of the claim. If `fopen` fails, every call of access leaves one more unused
element in the array: for every `n` there is a reachable state with `n` handles in which no
thread does anything. -/
theorem c24_failing_open_grows (content : Bytes) (n : Nat) :
    ∃ s tr, Reach content s tr ∧ s.handles.length = n ∧ (∀ t, s.pc t = .idle) ∧ s.main = none ∧
      ∀ h ∈ s.handles, h = ⟨none, none⟩ := by
  induction n with
  | zero => exact ⟨init, [], .init, rfl, fun _ => rfl, rfl, by simp [init]⟩
  | succ n ih =>
    obtain ⟨s, tr, hr, hlen, hidle, hmain, hh⟩ := ih
    -- the scan
    have scan : ∀ k i, i + k = s.handles.length → ∀ s1 tr1, Reach content s1 tr1 →
        s1.handles = s.handles → s1.main = some 0 → s1.pc = upd s.pc 0 (.accScan i) →
        ∃ s2 tr2, Reach content s2 tr2 ∧ s2.handles = s.handles ∧ s2.main = some 0 ∧
          s2.pc = upd s.pc 0 (.accScan s.handles.length) := by
      intro k
      induction k with
      | zero =>
        intro i hi s1 tr1 r1 h1 h2 h3
        exact ⟨s1, tr1, r1, h1, h2, by rw [h3]; simp at hi; rw [hi]⟩
      | succ k ihk =>
        intro i hi s1 tr1 r1 h1 h2 h3
        have hget : s1.handles[i]? = some ⟨none, none⟩ := by
          have hlt : i < s.handles.length := by omega
          rw [h1, List.getElem?_eq_getElem hlt, hh _ (List.getElem_mem hlt)]
        have e1 : step content s1 0 (.tick false) = .ok
            { s1 with handles := s1.handles.set i ⟨some 0, none⟩, pc := upd s1.pc 0 (.accTry i) } none := by
          have : s1.pc 0 = .accScan i := by rw [h3]; simp
          simp only [step, this, hget, tryLock]
        have r2 := Reach.step r1 e1
        have hget2 : (s1.handles.set i ⟨some 0, none⟩)[i]? = some ⟨some 0, none⟩ := by
          rw [set_get hget]; simp
        have e2 : step content
            { s1 with handles := s1.handles.set i ⟨some 0, none⟩, pc := upd s1.pc 0 (.accTry i) } 0
            (.tick false) = .ok { s1 with handles := s1.handles.set i ⟨some 0, none⟩, pc := upd (upd s1.pc 0 (.accTry i)) 0 (.accUndo i) } none := by
          simp only [step, upd_same, hget2, Bool.false_eq_true, if_false, St.goto]
        have r3 := Reach.step r2 e2
        have e3 : step content
            { s1 with handles := s1.handles.set i ⟨some 0, none⟩, pc := upd (upd s1.pc 0 (.accTry i)) 0 (.accUndo i) } 0
            (.tick false) = .ok { s1 with handles := (s1.handles.set i ⟨some 0, none⟩).set i ⟨none, none⟩, pc := upd (upd (upd s1.pc 0 (.accTry i)) 0 (.accUndo i)) 0 (.accScan (i + 1)) } none := by
          simp only [step, upd_same, hget2, unlockHandle, if_true]
        have r4 := Reach.step r3 e3
        refine ihk (i + 1) (by omega) _ _ r4 ?_ h2 ?_
        · simp only [List.set_set]
          rw [h1]
          apply List.ext_getElem?
          intro j
          rw [h1] at hget
          rw [set_get hget]
          split
          · rename_i e; rw [e, hget]
          · rfl
        · funext u
          simp only [h3]
          by_cases hu : u = 0
          · subst hu; simp
          · rw [upd_other _ _ hu, upd_other _ _ hu, upd_other _ _ hu, upd_other _ _ hu, upd_other _ _ hu]
    have e1 : step content s 0 .access = .ok (s.goto 0 .accLock) none := by
      simp only [step, hidle]
    have r1 := Reach.step hr e1
    have e2 : step content (s.goto 0 .accLock) 0 (.tick false) = .ok
        { s with main := some 0, pc := upd (upd s.pc 0 .accLock) 0 (.accScan 0) } none := by
      simp only [step, St.goto, upd_same, lockMain, hmain]
    have r2 := Reach.step r1 e2
    obtain ⟨s2, tr2, q1, q2, q3, q4⟩ := scan s.handles.length 0 (by omega) _ _ r2 rfl rfl (by
      funext u
      by_cases hu : u = 0
      · subst hu; simp
      · simp only [upd_other _ _ hu])
    have p2 : s2.pc 0 = .accScan s.handles.length := by rw [q4]; simp
    have e3 : step content s2 0 (.tick false) = .ok (s2.goto 0 .accNew) none := by
      simp only [step, p2, q2, List.getElem?_eq_none (Nat.le_refl _)]
    have r3 := Reach.step q1 e3
    have e4 : step content (s2.goto 0 .accNew) 0 (.tick false) = .ok { s2 with
        handles := s2.handles ++ [⟨none, none⟩]
        pc := upd (upd s2.pc 0 .accNew) 0 (.accOpen s2.handles.length) } (some (.appended 0)) := by
      simp only [step, St.goto, upd_same]
    have r4 := Reach.step r3 e4
    have hg : (s2.handles ++ [(⟨none, none⟩ : Handle)])[s2.handles.length]? = some ⟨none, none⟩ := by simp
    have e5 : step content { s2 with
        handles := s2.handles ++ [⟨none, none⟩]
        pc := upd (upd s2.pc 0 .accNew) 0 (.accOpen s2.handles.length) } 0 (.tick false) = .ok { s2 with
        handles := s2.handles ++ [⟨none, none⟩]
        pc := upd (upd (upd s2.pc 0 .accNew) 0 (.accOpen s2.handles.length)) 0 .accFail } none := by
      simp only [step, upd_same, hg, Bool.false_eq_true, if_false, St.goto]
    have r5 := Reach.step r4 e5
    have e6 : step content { s2 with
        handles := s2.handles ++ [⟨none, none⟩]
        pc := upd (upd (upd s2.pc 0 .accNew) 0 (.accOpen s2.handles.length)) 0 .accFail } 0 (.tick false) = .ok { s2 with
        main := none
        handles := s2.handles ++ [⟨none, none⟩]
        pc := upd (upd (upd (upd s2.pc 0 .accNew) 0 (.accOpen s2.handles.length)) 0 .accFail) 0 .idle } (some (.failed 0)) := by
      simp only [step, upd_same, unlockMain, q3, if_true]
    have r6 := Reach.step r5 e6
    refine ⟨_, _, r6, by simp [q2, hlen], ?_, rfl, ?_⟩
    · intro u
      simp only
      by_cases hu : u = 0
      · subst hu; simp
      · simp only [upd_other _ _ hu, q4, hidle]
    · intro x hx
      simp only [q2, List.mem_append, List.mem_singleton] at hx
      rcases hx with hx | hx
      · exact hh x hx
      · exact hx

/-! ## C56 -/

/-- The thread is inside of one of the library's calls. -/
def PC.inCall : PC → Bool
  | .idle | .hold _ _ => false
  | _ => true

/-- The owner of the main mutex can always continue. -/
theorem owner_continues {content : Bytes} {s : St} {tr : List Ev} (h : Reach content s tr) {t : Nat}
    (hm : (s.pc t).inMain = true) (ok : Bool) : ∃ s' ev, step content s t (.tick ok) = .ok s' ev := by
  have inv := reach_inv h
  have hub := c25_no_undefined_behaviour h t (.tick ok)
  have hb : step content s t (.tick ok) ≠ .blocked := by
    cases hpc : s.pc t <;> rw [hpc] at hm <;> simp only [PC.inMain, Bool.false_eq_true] at hm <;>
      simp only [step, hpc, ne_eq, reduceCtorEq, not_false_eq_true]
    case accScan i =>
      split
      · simp
      · unfold tryLock; split <;> simp
    case killScan i =>
      split
      · simp
      · unfold tryLock; split <;> simp
    case accTry i =>
      split
      · simp
      · split
        · simp
        · split <;> simp [openFile]
    case accOpen i =>
      split
      · simp
      · split <;> simp [openFile]
    case killTry i =>
      split
      · simp
      · split
        · simp
        · split <;> simp
    case accNewLock i f =>
      obtain ⟨x, x1, x2, _⟩ := inv.fresh t i (by rw [hpc]; rfl)
      rw [x1]; simp only [x2]; simp
    all_goals first
      | exact (unlockMain_safe inv (by rw [hpc]; rfl) _ _).2
      | exact (unlockHandle_safe inv (by rw [hpc]; rfl) _).2
  cases hc : step content s t (.tick ok) with
  | blocked => exact absurd hc hb
  | ub => exact absurd hc hub
  | ok s' ev => exact ⟨s', ev, rfl⟩

/-- C56, first part. There is no deadlock: in every reachable state in which a thread is inside
of a call, a thread inside of a call can continue, whatever `fopen` does. -/
theorem c56_no_deadlock {content : Bytes} {s : St} {tr : List Ev} (h : Reach content s tr) {t : Nat}
    (ht : (s.pc t).inCall = true) :
    ∃ u, (s.pc u).inCall = true ∧ ∀ ok, ∃ s' ev, step content s u (.tick ok) = .ok s' ev := by
  have inv := reach_inv h
  cases hm : s.main with
  | some u =>
    have hu := (inv.main u).1 hm
    refine ⟨u, ?_, owner_continues h hu⟩
    cases hc : s.pc u <;> rw [hc] at hu <;> simp [PC.inMain] at hu <;> rfl
  | none =>
    refine ⟨t, ht, fun ok => ?_⟩
    cases hi : (s.pc t).inMain with
    | true => exact owner_continues h hi ok
    | false =>
      cases hc : s.pc t <;> rw [hc] at ht hi <;> simp [PC.inMain, PC.inCall] at ht hi <;>
        simp [step, hc, lockMain, hm]

/-- Bound for the number of transitions until a thread leaves the protected section. -/
def work (n : Nat) : PC → Nat
  | .accScan i => 4 * (n - i) + 10
  | .accTry i => 4 * (n - i) + 9
  | .accUndo i => 4 * (n - i) + 8
  | .accNew => 5
  | .accOpen _ => 4
  | .accNewLock _ _ => 3
  | .accGot _ _ => 2
  | .accFail => 2
  | .retUnlock _ _ => 2
  | .retMain => 1
  | .killScan i => 4 * (n - i) + 4
  | .killTry i => 4 * (n - i) + 3
  | .killUndo i => 4 * (n - i) + 2
  | .killMain => 1
  | _ => 0

theorem step_work {content : Bytes} {s s' : St} {t : Nat} {a : Act} {ev : Option Ev}
    (hs : step content s t a = .ok s' ev) (hm : (s.pc t).inMain = true) :
    work s'.handles.length (s'.pc t) < work s.handles.length (s.pc t) := by
  have hlen : ∀ i (h : Handle), s.handles[i]? = some h → i < s.handles.length := by
    intro i h hi; exact (List.getElem?_eq_some_iff.1 hi).1
  cases hpc : s.pc t with
  | hold | idle | accLock | retLock | killLock => rw [hpc] at hm; simp [PC.inMain] at hm
  | killTry j =>
    cases a <;> simp only [step, hpc] at hs <;> try contradiction
    split at hs
    · contradiction
    · split at hs
      · simp only [Out.ok.injEq] at hs; rw [← hs.1]; simp [St.goto, work]
      · split at hs
        · contradiction
        · simp only [Out.ok.injEq] at hs; rw [← hs.1]; simp [work]
  | accTry j =>
    cases a <;> simp only [step, hpc] at hs <;> try contradiction
    split at hs
    · contradiction
    · split at hs
      · simp only [Out.ok.injEq] at hs; rw [← hs.1]; simp [St.goto, work]; try omega
      · split at hs
        · unfold openFile at hs; simp only [Out.ok.injEq] at hs; rw [← hs.1]; simp [work]; try omega
        · simp only [Out.ok.injEq] at hs; rw [← hs.1]; simp [St.goto, work]
  | accOpen j =>
    cases a <;> simp only [step, hpc] at hs <;> try contradiction
    split at hs
    · contradiction
    · split at hs
      · unfold openFile at hs; simp only [Out.ok.injEq] at hs; rw [← hs.1]; simp [work]
      · simp only [Out.ok.injEq] at hs; rw [← hs.1]; simp [St.goto, work]
  | accNewLock j g =>
    cases a <;> simp only [step, hpc] at hs <;> try contradiction
    split at hs
    · contradiction
    · split at hs
      · simp only [Out.ok.injEq] at hs; rw [← hs.1]; simp [work]
      · contradiction
  | accScan j | killScan j =>
    cases a <;> simp only [step, hpc] at hs <;> try contradiction
    split at hs
    · simp only [Out.ok.injEq] at hs; rw [← hs.1]; simp [St.goto, work]; try omega
    · rename_i hj
      have := hlen _ _ hj
      unfold tryLock at hs
      split at hs <;> (simp only [Out.ok.injEq] at hs; rw [← hs.1]; simp [St.goto, work]; try omega)
  | accNew =>
    cases a <;> simp only [step, hpc] at hs <;> try contradiction
    simp only [Out.ok.injEq] at hs; rw [← hs.1]; simp [work]
  | accUndo | retUnlock | killUndo =>
    cases a <;> simp only [step, hpc] at hs <;> try contradiction
    unfold unlockHandle at hs; split at hs
    · contradiction
    · rename_i hj
      have := hlen _ _ hj
      split at hs
      · simp only [Out.ok.injEq] at hs; rw [← hs.1]; simp [work]; try omega
      · contradiction
  | accGot | accFail | retMain | killMain =>
    cases a <;> simp only [step, hpc] at hs <;> try contradiction
    unfold unlockMain at hs; split at hs
    · simp only [Out.ok.injEq] at hs; rw [← hs.1]; simp [work]
    · contradiction

theorem work_le (n : Nat) (pc : PC) : work n pc ≤ 4 * n + 10 := by
  cases pc <;> simp only [work] <;> omega

/-- C56, second part. A call that has got the main mutex gives it back after a bounded number
of its own transitions, whatever the other threads do meanwhile: if a schedule contains more
than `4 * n + 10` transitions of the thread (`n` handles), then the thread has left the protected section
after some prefix of the schedule. -/
theorem c56_section_terminates {content : Bytes} {s : St} {tr : List Ev} (h : Reach content s tr)
    {t : Nat} (hm : (s.pc t).inMain = true) {sched : List (Nat × Act)} {s' : St} {tr' : List Ev} {e}
    (hrun : run content s sched tr = (.ok s' e, tr'))
    (hlong : 4 * s.handles.length + 10 < (sched.filter (fun x => x.1 == t)).length) :
    ∃ p rest s1 e1 tr1, sched = p ++ rest ∧ run content s p tr = (.ok s1 e1, tr1) ∧
      (s1.pc t).inMain = false := by
  have hlong' : work s.handles.length (s.pc t) < (sched.filter (fun x => x.1 == t)).length :=
    Nat.lt_of_le_of_lt (work_le _ _) hlong
  clear hlong
  induction sched generalizing s tr with
  | nil => simp at hlong'
  | cons x rest ih =>
    obtain ⟨u, a⟩ := x
    simp only [run] at hrun
    split at hrun
    · simp at hrun
    · simp at hrun
    · rename_i s1 ev1 hs
      have r1 := Reach.step h hs
      cases hm1 : (s1.pc t).inMain with
      | false =>
        refine ⟨[(u, a)], rest, s1, none, tr ++ ev1.toList, rfl, ?_, hm1⟩
        simp [run, hs]
      | true =>
        have hw : work s1.handles.length (s1.pc t) < (rest.filter (fun x => x.1 == t)).length := by
          by_cases hut : u = t
          · subst hut
            have := step_work hs hm
            simp at hlong'
            omega
          · have hh := step_handles hs (other_inMain (reach_inv h) hm hut)
            rw [step_other hs (fun e => hut e.symm), hh]
            simpa [hut] using hlong'
        obtain ⟨p, rest', s2, e2, tr2, q1, q2, q3⟩ := ih r1 hm1 hrun hw
        refine ⟨(u, a) :: p, rest', s2, e2, tr2, by rw [q1]; rfl, ?_, q3⟩
        simp only [run, hs]
        exact q2

/-! ## Executions that meet the hypotheses -/

/-- Thread 1 and 2 both get a handle, seek and read; thread 3 closes idle files meanwhile. -/
def sample : List (Nat × Act) :=
  [(1, .access), (1, .tick true), (1, .tick true), (1, .tick true), (1, .tick true), (2, .access),
   (1, .tick true), (1, .tick true), (1, .seek 2), (2, .tick true), (2, .tick true), (2, .tick true),
   (2, .tick true), (2, .tick true), (2, .tick true), (2, .tick true), (3, .kill), (3, .tick true),
   (1, .read 2), (2, .seek 0), (3, .tick true), (3, .tick true), (2, .read 1), (1, .read 5), (3, .tick true),
   (3, .tick true)]

def endState (content : Bytes) (sched : List (Nat × Act)) : Option (List Ev × List Handle × PC × PC × PC) :=
  match run content init sched [] with
  | (.ok s _, tr) => some (tr, s.handles, s.pc 1, s.pc 2, s.pc 3)
  | _ => none

/-- Two threads hold different handles, the files are open, the reads are right and there are
as many handles as threads that hold one. -/
example : endState [10, 11, 12, 13, 14] sample =
    some ([.appended 1, .acquired 1, .sought 1 2, .appended 2, .acquired 2, .got 1 2 [12, 13],
      .sought 2 0, .got 2 1 [10], .got 1 5 [14]],
      [⟨some 1, some 0⟩, ⟨some 2, some 1⟩], .hold 0 0, .hold 1 1, .idle) := by
  decide +kernel

/-- After the return of both handles and the closing of idle files no file is open; the next access
uses the first handle again. -/
example : (endState [10, 11, 12, 13, 14] (sample ++
    [(1, .ret), (1, .tick true), (1, .tick true), (1, .tick true), (2, .ret), (2, .tick true),
     (2, .tick true), (2, .tick true), (3, .kill), (3, .tick true), (3, .tick true), (3, .tick true),
     (3, .tick true), (3, .tick true), (3, .tick true), (3, .tick true), (3, .tick true), (3, .tick true),
     (2, .access), (2, .tick true), (2, .tick true), (2, .tick true), (2, .tick true)])).map (·.2) =
    some ([⟨some 2, some 2⟩, ⟨none, none⟩], .idle, .hold 0 2, .idle) := by
  decide +kernel

end Dyna.MF
