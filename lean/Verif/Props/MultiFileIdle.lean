import Verif.Props.MultiFile
/-!
# Closing the idle files closes all of them (C25)
-/

namespace Dyna.MF

/-- Nobody uses handle `i`, or its file is closed. -/
def ClosedIfIdle (s : St) (i : Nat) : Prop :=
  ∀ h : Handle, s.handles[i]? = some h → h.owner = none → h.file = none

/-- Progress of a call that closes the idle files. -/
def KillInv (s : St) (t : Nat) : Prop :=
  match s.pc t with
  | .killScan j => ∀ i, i < j → ClosedIfIdle s i
  | .killTry j => ∀ i, i < j → ClosedIfIdle s i
  | .killUndo j => (∀ i, i < j → ClosedIfIdle s i) ∧
      ∀ h : Handle, s.handles[j]? = some h → h.file = none
  | .killMain => ∀ i, ClosedIfIdle s i
  | _ => True

/-- While `t` is inside of the main mutex, another thread leaves the handles alone. -/
theorem step_handles_other {content : Bytes} {s s' : St} {t u : Nat} {a : Act} {ev : Option Ev}
    (inv : Inv s) (ht : (s.pc t).inMain = true) (hu : u ≠ t)
    (hs : step content s u a = .ok s' ev) : s'.handles = s.handles := by
  have hm := (inv.main t).2 ht
  have hnu : (s.pc u).inMain ≠ true := by
    intro h
    have := (inv.main u).2 h
    rw [hm] at this
    simp only [Option.some.injEq] at this
    exact hu this.symm
  cases hpc : s.pc u <;> rw [hpc] at hnu <;> simp only [PC.inMain, ne_eq, not_true_eq_false] at hnu
  case idle =>
    cases a <;> simp only [step, hpc] at hs <;> try contradiction
    all_goals (simp only [Out.ok.injEq] at hs; rw [← hs.1]; rfl)
  case accLock =>
    cases a <;> simp only [step, hpc, lockMain, hm] at hs <;> contradiction
  case retLock =>
    cases a <;> simp only [step, hpc, lockMain, hm] at hs <;> contradiction
  case killLock =>
    cases a <;> simp only [step, hpc, lockMain, hm] at hs <;> contradiction
  case hold i f =>
    cases a <;> simp only [step, hpc] at hs <;> try contradiction
    · simp only [Out.ok.injEq] at hs; rw [← hs.1]; rfl
    · split at hs
      · contradiction
      · simp only [Out.ok.injEq] at hs; rw [← hs.1]
    · split at hs
      · contradiction
      · simp only [Out.ok.injEq] at hs; rw [← hs.1]

theorem killInv_congr {s s' : St} {t : Nat} (hp : s'.pc t = s.pc t) (hh : s'.handles = s.handles)
    (h : KillInv s t) : KillInv s' t := by
  unfold KillInv ClosedIfIdle at *
  rw [hp, hh]; exact h

theorem step_killInv {content : Bytes} {s s' : St} {t u : Nat} {a : Act} {ev : Option Ev}
    (inv : Inv s) (hk : KillInv s t) (hs : step content s u a = .ok s' ev) : KillInv s' t := by
  by_cases hu : u = t
  · subst hu
    cases hpc : s.pc u
    case killLock =>
      cases a <;> simp only [step, hpc] at hs <;> try contradiction
      unfold lockMain at hs
      split at hs
      · simp only [Out.ok.injEq] at hs; rw [← hs.1]
        simp only [KillInv, upd_same]
        intro i hi; omega
      · contradiction
    case killScan j =>
      unfold KillInv at hk
      rw [hpc] at hk
      simp only at hk
      cases a <;> simp only [step, hpc] at hs <;> try contradiction
      split at hs
      · rename_i hn
        simp only [Out.ok.injEq] at hs; rw [← hs.1]
        simp only [KillInv, St.goto, upd_same]
        intro i
        by_cases hi : i < j
        · exact hk i hi
        · intro h hh
          have h1 := List.getElem?_eq_none_iff.1 hn
          have h2 : s.handles[i]? = none := List.getElem?_eq_none_iff.2 (by omega)
          simp only at hh
          rw [h2] at hh; cases hh
      · rename_i h hh
        unfold tryLock at hs
        split at hs
        · simp only [Out.ok.injEq] at hs; rw [← hs.1]
          simp only [KillInv, upd_same]
          intro i hi x hx
          simp only at hx
          rw [List.getElem?_set_ne (by omega)] at hx
          exact hk i hi x hx
        · rename_i o ho
          simp only [Out.ok.injEq] at hs; rw [← hs.1]
          simp only [KillInv, St.goto, upd_same]
          intro i hi
          by_cases hi' : i < j
          · exact hk i hi'
          · have : i = j := by omega
            subst this
            intro x hx hxo
            simp only at hx
            rw [hh] at hx
            simp only [Option.some.injEq] at hx
            subst hx
            rw [ho] at hxo; cases hxo
    case killTry j =>
      unfold KillInv at hk
      rw [hpc] at hk
      simp only at hk
      cases a <;> simp only [step, hpc] at hs <;> try contradiction
      split at hs
      · contradiction
      · rename_i h hh
        split at hs
        · rename_i hf
          simp only [Out.ok.injEq] at hs; rw [← hs.1]
          simp only [KillInv, St.goto, upd_same]
          refine ⟨hk, fun x hx => ?_⟩
          rw [hh] at hx
          simp only [Option.some.injEq] at hx
          rw [← hx]; exact hf
        · split at hs
          · contradiction
          · simp only [Out.ok.injEq] at hs; rw [← hs.1]
            simp only [KillInv, upd_same]
            refine ⟨fun i hi x hx => ?_, fun x hx => ?_⟩
            · simp only at hx
              rw [List.getElem?_set_ne (by omega)] at hx
              exact hk i hi x hx
            · have hlt : j < s.handles.length := by
                have := (List.getElem?_eq_some_iff.1 hh).1
                exact this
              rw [List.getElem?_set_self hlt] at hx
              simp only [Option.some.injEq] at hx
              rw [← hx]
    case killUndo j =>
      unfold KillInv at hk
      rw [hpc] at hk
      simp only at hk
      cases a <;> simp only [step, hpc] at hs <;> try contradiction
      unfold unlockHandle at hs
      split at hs
      · contradiction
      · rename_i h hh
        split at hs
        · simp only [Out.ok.injEq] at hs; rw [← hs.1]
          simp only [KillInv, upd_same]
          intro i hi x hx
          simp only at hx
          by_cases hi' : i < j
          · rw [List.getElem?_set_ne (by omega)] at hx
            exact hk.1 i hi' x hx
          · have : i = j := by omega
            subst this
            have hlt : i < s.handles.length := (List.getElem?_eq_some_iff.1 hh).1
            rw [List.getElem?_set_self hlt] at hx
            simp only [Option.some.injEq] at hx
            intro _
            rw [← hx]
            exact hk.2 h hh
        · contradiction
    all_goals
      cases a <;> simp only [step, hpc, lockMain, unlockMain, unlockHandle, tryLock, openFile] at hs
      all_goals try contradiction
      all_goals repeat' split at hs
      all_goals try contradiction
      all_goals
        simp only [Out.ok.injEq] at hs
        rw [← hs.1]
        simp [KillInv, St.goto, upd_same, hpc]
  · by_cases hm : (s.pc t).inMain = true
    · exact killInv_congr (step_other hs (Ne.symm hu)) (step_handles_other inv hm hu hs) hk
    · unfold KillInv
      rw [step_other hs (Ne.symm hu)]
      cases hpc : s.pc t <;> rw [hpc] at hm <;> first | trivial | (exact absurd rfl hm)

theorem reach_killInv {content : Bytes} {s : St} {tr : List Ev} (h : Reach content s tr) (t : Nat) :
    KillInv s t := by
  induction h with
  | init => simp [KillInv, init]
  | step hr hs ih => exact step_killInv (reach_inv hr) ih hs

/-- C25, third part. When a call that closes the idle files is about to give back the main
mutex, every file that is still open belongs to a handle that a thread uses. -/
theorem c25_idle_files_are_closed {content : Bytes} {s : St} {tr : List Ev}
    (h : Reach content s tr) {t : Nat} (ht : s.pc t = .killMain) (i : Nat) (hd : Handle) (f : Nat)
    (hi : s.handles[i]? = some hd) (hf : hd.file = some f) :
    ∃ u, u ≠ t ∧ hd.owner = some u ∧ (s.pc u).owned = some i := by
  have hk := reach_killInv h t
  unfold KillInv at hk
  rw [ht] at hk
  cases ho : hd.owner with
  | none => have := hk i hd hi ho; rw [hf] at this; cases this
  | some u =>
    have hown := ((reach_inv h).own u i).2 ⟨hd, hi, ho⟩
    refine ⟨u, ?_, rfl, hown⟩
    rintro rfl
    rw [ht] at hown; cases hown

/-- A schedule in which a thread closes the idle file that another one has returned, and the
file of a third one stays open. -/
example : ∃ s tr, Reach (bs "abc") s tr ∧ s.pc 2 = .killMain ∧
    s.handles = [⟨none, none⟩, ⟨some 1, some 1⟩] := by
  let sched : List (Nat × Act) :=
    [(0, .access), (0, .tick true), (0, .tick true), (0, .tick true), (0, .tick true),
     (0, .tick true), (0, .tick true),
     (1, .access), (1, .tick true), (1, .tick true), (1, .tick true), (1, .tick true),
     (1, .tick true), (1, .tick true), (1, .tick true),
     (0, .ret), (0, .tick true), (0, .tick true), (0, .tick true),
     (2, .kill), (2, .tick true), (2, .tick true), (2, .tick true), (2, .tick true),
     (2, .tick true), (2, .tick true)]
  have key : ∀ (l : List (Nat × Act)) (s : St) (tr : List Ev), Reach (bs "abc") s tr →
      ∀ s' ev tr', run (bs "abc") s l tr = (.ok s' ev, tr') → Reach (bs "abc") s' tr' := by
    intro l
    induction l with
    | nil =>
      intro s tr hr s' ev tr' h
      simp only [run, Prod.mk.injEq, Out.ok.injEq] at h
      obtain ⟨⟨h1, _⟩, h2⟩ := h
      rw [← h1, ← h2]; exact hr
    | cons x l ih =>
      intro s tr hr s' ev tr' h
      obtain ⟨t, a⟩ := x
      simp only [run] at h
      split at h
      · simp at h
      · simp at h
      · rename_i s1 ev1 he
        exact ih _ _ (Reach.step hr he) _ _ _ h
  have hrun : ∃ s ev tr, run (bs "abc") init sched [] = (.ok s ev, tr) ∧ s.pc 2 = .killMain ∧
      s.handles = [⟨none, none⟩, ⟨some 1, some 1⟩] := ⟨_, _, _, rfl, rfl, rfl⟩
  obtain ⟨s, ev, tr, h1, h2, h3⟩ := hrun
  exact ⟨s, tr, key _ _ _ Reach.init _ _ _ h1, h2, h3⟩

end Dyna.MF
