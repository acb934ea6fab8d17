import Verif.Sync
/-!
# C104: locks on both platforms
-/

namespace Dyna.Sync

open Dyna

/-- Specification: the call gave the lock `l` to the thread `t`. -/
def Acquires (e : Ev) (t l : Nat) : Prop := e.thread = t ∧ e.lock = l ∧ e.op ≠ .unlock ∧ e.ret = 0

/-- Specification: the call is an unlock of `l` by `t`. -/
def Releases (e : Ev) (t l : Nat) : Prop := e.thread = t ∧ e.lock = l ∧ e.op = .unlock

/-- Specification: `t` has got the lock and has not unlocked it since (the newest call is the first one of the list). -/
def Held (t l : Nat) (h : List Ev) : Prop :=
  ∃ newer e older, h = newer ++ e :: older ∧ Acquires e t l ∧ ∀ x ∈ newer, ¬ Releases x t l

/-- Specification: some thread holds the lock. -/
def Locked (l : Nat) (h : List Ev) : Prop := ∃ t, Held t l h

/-- Specification: threads only unlock what they hold. -/
def Disciplined (h : List Ev) : Prop := ∀ newer e older, h = newer ++ e :: older → e.op = .unlock → Held e.thread e.lock older

/-- Specification: what a lock does: `lock` returns 0 when nobody holds it, and waits otherwise; `trylock` returns 0 or `EBUSY`, depending on
that; `unlock` returns 0. -/
def Allowed (h : List Ev) (t : Nat) (op : Op) (l r : Nat) : Prop :=
  match op with
  | .lock => r = 0 ∧ ¬ Locked l h
  | .trylock => r = 0 ∧ ¬ Locked l h ∨ r = EBUSY ∧ Locked l h
  | .unlock => r = 0 ∧ Held t l h

theorem held_cons {t l : Nat} {e : Ev} {h : List Ev} : Held t l (e :: h) ↔ Acquires e t l ∨ ¬ Releases e t l ∧ Held t l h := by
  constructor
  · rintro ⟨n, x, o, eq, ha, hn⟩
    cases n with
    | nil =>
      rw [List.nil_append, List.cons.injEq] at eq
      exact .inl (eq.1 ▸ ha)
    | cons y ys =>
      rw [List.cons_append, List.cons.injEq] at eq
      exact .inr ⟨eq.1 ▸ hn y (by simp), ys, x, o, eq.2, ha, fun z hz => hn z (by simp [hz])⟩
  · rintro (ha | ⟨hr, n, x, o, eq, ha, hn⟩)
    · exact ⟨[], e, h, rfl, ha, by simp⟩
    · refine ⟨e :: n, x, o, by rw [eq]; rfl, ha, fun z hz => ?_⟩
      rcases List.mem_cons.mp hz with rfl | hz
      · exact hr
      · exact hn z hz

theorem held_nil {t l : Nat} : ¬ Held t l [] := by
  rintro ⟨n, x, o, eq, _⟩
  simp at eq

theorem disciplined_tail {e : Ev} {h : List Ev} (hd : Disciplined (e :: h)) : Disciplined h :=
  fun n x o eq hx => hd (e :: n) x o (by rw [eq]; rfl) hx

theorem disciplined_head {e : Ev} {h : List Ev} (hd : Disciplined (e :: h)) (he : e.op = .unlock) : Held e.thread e.lock h :=
  hd [] e h rfl he

/-- Auxiliary: the object agrees with the holder. -/
def Agrees (win : Bool) (o : Obj) (w : Option Nat) : Prop :=
  if win then o = .event (some ⟨false, w.isNone⟩) else o = .mutex w

/-- Auxiliary: what a call does to an object that agrees with the holder `w`. -/
theorem call_agrees {win : Bool} {o : Obj} {w : Option Nat} (ha : Agrees win o w) (t : Nat) :
    (call t .lock o = match w with
      | none => .done 0 (if win then .event (some ⟨false, false⟩) else .mutex (some t))
      | some _ => .wait) ∧
    (call t .trylock o = match w with
      | none => .done 0 (if win then .event (some ⟨false, false⟩) else .mutex (some t))
      | some _ => .done EBUSY o) ∧
    (w = some t → call t .unlock o = .done 0 (if win then .event (some ⟨false, true⟩) else .mutex none)) := by
  cases win <;> simp only [Agrees, Bool.false_eq_true, if_false, if_true] at ha <;> subst ha <;> cases w <;>
    simp [call, lock, trylock, unlock, waitForSingleObject, setEvent, WAIT_OBJECT_0, WAIT_FAILED, WAIT_TIMEOUT]

theorem inv {win : Bool} {h : List Ev} {s : Nat → Obj} (hr : Run win h s) (hd : Disciplined h) (l : Nat) :
    ∃ w, Agrees win (s l) w ∧ ∀ t, Held t l h ↔ w = some t := by
  induction hr generalizing l with
  | start =>
    refine ⟨none, ?_, fun t => ?_⟩
    · cases win <;> simp [Agrees, create]
    · simp [held_nil]
  | @step h s t op k r o hr hc ih =>
    by_cases hl : l = k
    · subst hl
      obtain ⟨w, ha, hw⟩ := ih (disciplined_tail hd) l
      obtain ⟨c1, c2, c3⟩ := call_agrees ha t
      simp only [if_true]
      cases op with
      | lock =>
        rw [c1] at hc
        cases w with
        | some x => cases hc
        | none =>
          simp only [Out.done.injEq] at hc
          refine ⟨some t, ?_, fun t' => ?_⟩
          · cases win <;> simp [Agrees, ← hc.2]
          · rw [held_cons]
            simp [Acquires, Releases, hw, ← hc.1]
      | trylock =>
        rw [c2] at hc
        cases w with
        | some x =>
          simp only [Out.done.injEq] at hc
          refine ⟨some x, ?_, fun t' => ?_⟩
          · rw [← hc.2]
            exact ha
          · rw [held_cons]
            simp [Acquires, Releases, hw, ← hc.1, EBUSY]
        | none =>
          simp only [Out.done.injEq] at hc
          refine ⟨some t, ?_, fun t' => ?_⟩
          · cases win <;> simp [Agrees, ← hc.2]
          · rw [held_cons]
            simp [Acquires, Releases, hw, ← hc.1]
      | unlock =>
        have hh := (hw t).mp (disciplined_head hd rfl)
        rw [c3 hh] at hc
        simp only [Out.done.injEq] at hc
        refine ⟨none, ?_, fun t' => ?_⟩
        · cases win <;> simp [Agrees, ← hc.2]
        · rw [held_cons]
          simp [Acquires, Releases, hw, hh]
    · obtain ⟨w, ha, hw⟩ := ih (disciplined_tail hd) l
      refine ⟨w, ?_, fun t' => ?_⟩
      · simpa only [hl, if_false] using ha
      · rw [held_cons]
        have : ¬ k = l := fun e => hl e.symm
        simp [Acquires, Releases, hw, this]

/-- C104: after any calls of any threads, a call (an unlock only by the thread that holds the lock) returns a value exactly if the lock allows
it, on both platforms; otherwise it waits. -/
theorem c104_step {win : Bool} {h : List Ev} {s : Nat → Obj} (hr : Run win h s) (hd : Disciplined h) (t : Nat) (op : Op) (l r : Nat)
    (hu : op = .unlock → Held t l h) : (∃ o, call t op (s l) = .done r o) ↔ Allowed h t op l r := by
  obtain ⟨w, ha, hw⟩ := inv hr hd l
  obtain ⟨c1, c2, c3⟩ := call_agrees ha t
  have hl : Locked l h ↔ w ≠ none := by
    constructor
    · rintro ⟨x, hx⟩
      rw [(hw x).mp hx]
      simp
    · intro hn
      obtain ⟨x, hx⟩ := Option.ne_none_iff_exists'.mp hn
      exact ⟨x, (hw x).mpr hx⟩
  cases op with
  | lock =>
    rw [c1]
    simp only [Allowed, hl]
    cases w <;> simp [eq_comm]
  | trylock =>
    rw [c2]
    simp only [Allowed, hl]
    cases w <;> simp [eq_comm]
  | unlock =>
    rw [c3 ((hw t).mp (hu rfl))]
    simp [Allowed, hu rfl, eq_comm]

/-- C104: two threads never hold the same lock. -/
theorem c104_exclusive {win : Bool} {h : List Ev} {s : Nat → Obj} (hr : Run win h s) (hd : Disciplined h) {t t' l : Nat}
    (h1 : Held t l h) (h2 : Held t' l h) : t = t' := by
  obtain ⟨w, _, hw⟩ := inv hr hd l
  have := ((hw t).mp h1).symm.trans ((hw t').mp h2)
  exact Option.some.inj this

/-- C104: nothing is undefined, and a call that does not return waits for the thread that holds the lock. -/
theorem c104_waits {win : Bool} {h : List Ev} {s : Nat → Obj} (hr : Run win h s) (hd : Disciplined h) (t : Nat) (op : Op) (l : Nat)
    (hu : op = .unlock → Held t l h) :
    call t op (s l) ≠ .ub ∧ (call t op (s l) = .wait ↔ op = .lock ∧ Locked l h) := by
  obtain ⟨w, ha, hw⟩ := inv hr hd l
  obtain ⟨c1, c2, c3⟩ := call_agrees ha t
  have hl : Locked l h ↔ w ≠ none := by
    constructor
    · rintro ⟨x, hx⟩
      rw [(hw x).mp hx]
      simp
    · intro hn
      obtain ⟨x, hx⟩ := Option.ne_none_iff_exists'.mp hn
      exact ⟨x, (hw x).mpr hx⟩
  cases op with
  | lock =>
    rw [c1, hl]
    cases w <;> simp
  | trylock =>
    rw [c2, hl]
    cases w <;> simp
  | unlock =>
    rw [c3 ((hw t).mp (hu rfl))]
    simp

/-- C104: an unlock is never lost: after it any thread gets the lock. -/
theorem c104_wakes {win : Bool} {h : List Ev} {s : Nat → Obj} {t l r : Nat} (hr : Run win (⟨t, .unlock, l, r⟩ :: h) s)
    (hd : Disciplined (⟨t, .unlock, l, r⟩ :: h)) (t' : Nat) : ∃ o, call t' .lock (s l) = .done 0 o := by
  rw [c104_step hr hd t' .lock l 0 (by simp)]
  refine ⟨rfl, ?_⟩
  rintro ⟨x, hx⟩
  rcases held_cons.mp hx with ha | ⟨hn, hx⟩
  · exact ha.2.2.1 rfl
  · have ht : Held t l h := disciplined_head hd rfl
    have : x = t := by
      cases hr with
      | step hr' hc => exact c104_exclusive hr' (disciplined_tail hd) hx ht
    exact hn ⟨this.symm, rfl, rfl⟩

/-- C104: both platforms have the same behaviour: what can happen with one of them can happen with the other one. -/
theorem c104_same {h : List Ev} (hd : Disciplined h) (a b : Bool) : (∃ s, Run a h s) → ∃ s, Run b h s := by
  induction h with
  | nil => exact fun _ => ⟨_, .start⟩
  | cons e h ih =>
    rintro ⟨s, hr⟩
    cases hr with
    | @step _ s t op l r o hr hc =>
      have hd' := disciplined_tail hd
      obtain ⟨s', hr'⟩ := ih hd' ⟨s, hr⟩
      have hu : op = .unlock → Held t l h := fun he => disciplined_head hd he
      obtain ⟨o', ho'⟩ := (c104_step hr' hd' t op l r hu).mpr ((c104_step hr hd' t op l r hu).mp ⟨o, hc⟩)
      exact ⟨_, .step hr' ho'⟩

/-- Deviation: if the event cannot be created, every lock returns at once with an error; who does not look at the value (the library never
does) has no lock. -/
theorem c104_not_created (t : Nat) :
    lock t (create true true) = .done EINVAL (create true true) ∧ trylock t (create true true) = .done EINVAL (create true true) ∧
      unlock t (create true true) = .done EINVAL (create true true) :=
  ⟨rfl, rfl, rfl⟩

/-- The condition on unlocks is needed: on Windows another thread can unlock a lock, and a third one gets it while the first one still has it;
with POSIX threads this unlock is undefined. -/
theorem c104_foreign_unlock :
    (∃ s, Run true [⟨3, .lock, 0, 0⟩, ⟨2, .unlock, 0, 0⟩, ⟨1, .lock, 0, 0⟩] s) ∧
      Held 1 0 [⟨3, .lock, 0, 0⟩, ⟨2, .unlock, 0, 0⟩, ⟨1, .lock, 0, 0⟩] ∧
      Held 3 0 [⟨3, .lock, 0, 0⟩, ⟨2, .unlock, 0, 0⟩, ⟨1, .lock, 0, 0⟩] ∧ unlock 2 (.mutex (some 1)) = .ub := by
  refine ⟨⟨_, .step (.step (.step .start rfl) rfl) rfl⟩, ?_, ?_, rfl⟩
  · rw [held_cons, held_cons, held_cons]
    simp [Acquires, Releases]
  · rw [held_cons]
    simp [Acquires]

/-- Three threads: the second one tries while the first one holds the lock and gets it later. -/
theorem c104_sample (win : Bool) :
    (∃ s, Run win [⟨2, .lock, 0, 0⟩, ⟨1, .unlock, 0, 0⟩, ⟨2, .trylock, 0, EBUSY⟩, ⟨3, .lock, 7, 0⟩, ⟨1, .lock, 0, 0⟩] s) ∧
    Disciplined [⟨2, .lock, 0, 0⟩, ⟨1, .unlock, 0, 0⟩, ⟨2, .trylock, 0, EBUSY⟩, ⟨3, .lock, 7, 0⟩, ⟨1, .lock, 0, 0⟩] := by
  constructor
  · cases win
    · exact ⟨_, .step (.step (.step (.step (.step .start rfl) rfl) rfl) rfl) rfl⟩
    · exact ⟨_, .step (.step (.step (.step (.step .start rfl) rfl) rfl) rfl) rfl⟩
  · intro n e o eq he
    have key : ∀ m, m = n.length → Held e.thread e.lock o := by
      intro m hm
      match n, eq with
      | [], eq =>
        simp only [List.nil_append, List.cons.injEq] at eq
        rw [← eq.1] at he
        exact nomatch he
      | [_], eq =>
        simp only [List.cons_append, List.nil_append, List.cons.injEq] at eq
        rw [← eq.2.1, ← eq.2.2, held_cons, held_cons, held_cons]
        simp [Acquires, Releases]
      | [_, _], eq | [_, _, _], eq | [_, _, _, _], eq =>
        simp only [List.cons_append, List.nil_append, List.cons.injEq] at eq
        first
          | (rw [← eq.2.2.1] at he; exact nomatch he)
          | (rw [← eq.2.2.2.1] at he; exact nomatch he)
          | (rw [← eq.2.2.2.2.1] at he; exact nomatch he)
      | _ :: _ :: _ :: _ :: _ :: n, eq =>
        simp at eq
    exact key _ rfl

end Dyna.Sync
