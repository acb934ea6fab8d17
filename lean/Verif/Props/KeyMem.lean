import Verif.KeyMem
import Verif.Props.KeyInfo
/-!
# Property C86: the memory of a key file parse
-/

namespace Dyna.KeyMem

open Dyna.Key

/-! ## Specification -/

/-- Specification: exactly the blocks of the list are allocated (each as often as it is in the list). -/
def Owns (m : Mem) (L : List Nat) : Prop := m.live.Perm L

/-- Specification: a callback that uses only its own memory. `owned c` are the blocks of the user data `c`;
`Rep c evs`: the user data `c` is what the callback makes of the calls `evs`. -/
def CallbackOk {C : Type} (cb : Callback C) (owned : C → List Nat) (Rep : C → List KeyEvent → Prop) : Prop :=
  ∀ m c evs ev L, Rep c evs → Owns m (owned c ++ L) →
    ∃ m' c', cb.run m c ev = .ok (m', c') ∧ Rep c' (evs ++ [ev]) ∧ Owns m' (owned c' ++ L)

/-- Specification: no line of any file ends with `+`. -/
def NoContinued (w : World) : Prop :=
  ∀ f content lines, w.content f = some content → fileLines chunkSize w.mem content = .ok lines →
    ∀ line ∈ lines, line.text.getLast? ≠ some charPlus

/-! ## Blocks -/

/-- Auxiliary: one block. -/
def one (a b : Nat) : Nat := List.count a [b]

theorem count_cons1 (a b : Nat) (l : List Nat) : List.count a (b :: l) = one a b + List.count a l := by
  unfold one
  rw [← List.count_append]; rfl

/-- Auxiliary: two lists with the same elements. -/
macro "perms" : tactic => `(tactic| (
  refine List.perm_iff_count.2 (fun a => ?_)
  simp only [List.cons_append, List.append_assoc, List.nil_append, Option.toList_some, Option.toList_none,
    List.append_nil, List.count_append, count_cons1, List.count_nil]
  try omega))

theorem Owns.perm {m : Mem} {L L' : List Nat} (h : Owns m L) (hp : L.Perm L') : Owns m L' := List.Perm.trans h hp

theorem alloc_ok {m : Mem} {L : List Nat} (h : Owns m L) : Owns m.alloc.1 (m.alloc.2 :: L) := List.Perm.cons _ h

theorem free_ok {m : Mem} {b : Nat} {L : List Nat} (h : Owns m (b :: L)) :
    ∃ m', m.free b = .ok m' ∧ Owns m' L := by
  have hm : b ∈ m.live := h.mem_iff.2 (by simp)
  refine ⟨{ m with live := m.live.erase b }, by unfold Mem.free; rw [if_pos hm], ?_⟩
  have := List.Perm.erase b h
  rwa [List.erase_cons_head] at this

theorem freeOpt_ok {m : Mem} {p : Option Nat} {L : List Nat} (h : Owns m (p.toList ++ L)) :
    ∃ m', m.freeOpt p = .ok m' ∧ Owns m' L := by
  cases p with
  | none => exact ⟨m, rfl, h⟩
  | some b => exact free_ok h

theorem freeAll_ok : ∀ {l : List Nat} {m : Mem} {L : List Nat}, Owns m (l ++ L) →
    ∃ m', m.freeAll l = .ok m' ∧ Owns m' L
  | [], m, _, h => ⟨m, rfl, h⟩
  | b :: l, m, L, h => by
    obtain ⟨m1, e1, h1⟩ := free_ok (L := l ++ L) h
    obtain ⟨m2, e2, h2⟩ := freeAll_ok h1
    exact ⟨m2, by simp only [Mem.freeAll, e1, Res.bind_ok, e2], h2⟩

theorem use_ok {m : Mem} {b : Nat} {L : List Nat} (h : Owns m L) (hb : b ∈ L) : m.use b = .ok () := by
  unfold Mem.use
  rw [if_pos (h.mem_iff.2 hb)]

theorem useOpt_ok {m : Mem} {p : Option Nat} {L : List Nat} (h : Owns m L) (hb : p.toList ⊆ L) :
    m.useOpt p = .ok () := by
  cases p with
  | none => rfl
  | some b => exact use_ok h (hb (by simp))

theorem useAll_ok {m : Mem} {L : List Nat} (h : Owns m L) : ∀ {l : List Nat}, l ⊆ L → m.useAll l = .ok ()
  | [], _ => rfl
  | b :: l, hb => by
    simp only [Mem.useAll]
    rw [use_ok h (hb (by simp))]
    simp only [Res.bind_ok]
    exact useAll_ok h (fun x hx => hb (by simp [hx]))

theorem realloc_ok {m : Mem} {p : Option Nat} {L : List Nat} (h : Owns m (p.toList ++ L)) :
    ∃ m' b, m.realloc p = .ok (m', b) ∧ Owns m' (b :: L) := by
  obtain ⟨m1, e1, h1⟩ := freeOpt_ok h
  exact ⟨m1.alloc.1, m1.alloc.2, by simp only [Mem.realloc, e1, Res.bind_ok], alloc_ok h1⟩

theorem push_ok {m : Mem} {p : Option Nat} {L : List Nat} (h : Owns m (p.toList ++ L)) :
    ∃ m' b, push m p = .ok (m', b) ∧ Owns m' (b :: L) := by
  cases p with
  | none => exact realloc_ok h
  | some b =>
    obtain ⟨m1, b1, e1, h1⟩ := realloc_ok h
    obtain ⟨m2, b2, e2, h2⟩ := realloc_ok (p := some b1) h1
    exact ⟨m2, b2, by simp only [push, e1, Res.bind_ok, e2], h2⟩

theorem nameBlk_ok {m : Mem} {L : List Nat} (h : Owns m L) (name : Bytes) :
    Owns (nameBlk m name).1 ((nameBlk m name).2.toList ++ L) := by
  unfold nameBlk
  split
  · exact h
  · exact alloc_ok h

theorem cardBlk_ok {m : Mem} {L : List Nat} (h : Owns m L) (cells : Bytes) :
    Owns (cardBlk m cells).1 ((cardBlk m cells).2.toList ++ L) := by
  unfold cardBlk
  split
  · exact h
  · exact alloc_ok h

/-! ## Invariant -/

/-- Auxiliary: the blocks of the local variables. -/
def locBlks (lm : Loc) : List Nat :=
  lm.pend.toList ++ lm.lineExtra.toList ++ lm.nameExtra.toList ++ lm.err.toList ++ lm.warn.toList

/-- Auxiliary: the shared state and the blocks `L` of others. -/
structure ShOk {C : Type} (owned : C → List Nat) (Rep : C → List KeyEvent → Prop) (x : Sh C) (L : List Nat) :
    Prop where
  len : x.blks.length = x.s.paths.length
  rep : Rep x.user x.s.events
  own : Owns x.mem (x.arr :: x.blks ++ owned x.user ++ L)

/-- Auxiliary: the local variables of a file that has been started with `n0` errors and `k0` warnings. -/
structure LocOk (n0 k0 : Nat) (lm : Loc) (s : Shared) : Prop where
  pend : lm.pend.isSome = lm.l.pending.isSome
  errLe : n0 ≤ s.errors.length
  err : lm.err.isSome = decide (n0 < s.errors.length)
  warnLe : k0 ≤ s.warnings.length
  warn : lm.warn.isSome = decide (k0 < s.warnings.length)

section
variable {C : Type} {cb : Callback C} {owned : C → List Nat} {Rep : C → List KeyEvent → Prop}

theorem ShOk.mem' {x : Sh C} {L L' : List Nat} {m : Mem} (h : ShOk owned Rep x L)
    (hm : Owns m (x.arr :: x.blks ++ owned x.user ++ L')) : ShOk owned Rep { x with mem := m } L' :=
  ⟨h.len, h.rep, hm⟩

theorem ShOk.perm {x : Sh C} {L L' : List Nat} (h : ShOk owned Rep x L) (hp : L.Perm L') : ShOk owned Rep x L' :=
  ⟨h.len, h.rep, h.own.perm (List.Perm.append_left _ hp)⟩

/-- Auxiliary: an allocation that is added to the blocks of others. -/
theorem ShOk.alloc {x : Sh C} {L : List Nat} (h : ShOk owned Rep x L) :
    ShOk owned Rep { x with mem := x.mem.alloc.1 } (x.mem.alloc.2 :: L) :=
  h.mem' ((alloc_ok h.own).perm (by perms))

theorem ShOk.freeOpt {x : Sh C} {p : Option Nat} {L : List Nat} (h : ShOk owned Rep x (p.toList ++ L)) :
    ∃ m, x.mem.freeOpt p = .ok m ∧ ShOk owned Rep { x with mem := m } L := by
  obtain ⟨m, e1, h1⟩ := freeOpt_ok (m := x.mem) (p := p) (L := x.arr :: x.blks ++ owned x.user ++ L)
    (h.own.perm (by perms))
  exact ⟨m, e1, h.mem' h1⟩

theorem ShOk.realloc {x : Sh C} {p : Option Nat} {L : List Nat} (h : ShOk owned Rep x (p.toList ++ L)) :
    ∃ m b, x.mem.realloc p = .ok (m, b) ∧ ShOk owned Rep { x with mem := m } (b :: L) := by
  obtain ⟨m, b, e1, h1⟩ := realloc_ok (m := x.mem) (p := p) (L := x.arr :: x.blks ++ owned x.user ++ L)
    (h.own.perm (by perms))
  exact ⟨m, b, e1, h.mem' (h1.perm (by perms))⟩

theorem ShOk.push {x : Sh C} {p : Option Nat} {L : List Nat} (h : ShOk owned Rep x (p.toList ++ L)) :
    ∃ m b, push x.mem p = .ok (m, b) ∧ ShOk owned Rep { x with mem := m } (b :: L) := by
  obtain ⟨m, b, e1, h1⟩ := push_ok (m := x.mem) (p := p) (L := x.arr :: x.blks ++ owned x.user ++ L)
    (h.own.perm (by perms))
  exact ⟨m, b, e1, h.mem' (h1.perm (by perms))⟩

theorem ShOk.useOpt {x : Sh C} {p : Option Nat} {L : List Nat} (h : ShOk owned Rep x L) (hp : p.toList ⊆ L) :
    x.mem.useOpt p = .ok () :=
  useOpt_ok h.own (fun _ ha => List.mem_append_right _ (hp ha))

theorem call_ok (hcb : CallbackOk cb owned Rep) {x : Sh C} {L : List Nat} (h : ShOk owned Rep x L) (ev : KeyEvent)
    {name card : Option Nat} (hn : name.toList ⊆ L) (hc : card.toList ⊆ L) :
    ∃ x', call cb x ev name card = .ok x' ∧ x'.s = x.s.emit ev ∧ ShOk owned Rep x' L := by
  obtain ⟨m', c', e1, r1, o1⟩ := hcb x.mem x.user x.s.events ev (x.arr :: x.blks ++ L) h.rep
    (h.own.perm (by perms))
  refine ⟨{ x with s := x.s.emit ev, mem := m', user := c' }, ?_, rfl, h.len, r1, o1.perm (by perms)⟩
  unfold call
  rw [h.useOpt hn, h.useOpt hc, use_ok h.own (by simp), useAll_ok h.own (fun a ha => by simp [ha])]
  simp only [Res.bind_ok, e1]

theorem emitCard_ok (hcb : CallbackOk cb owned Rep) {x : Sh C} {L : List Nat} {card : Option Nat}
    (h : ShOk owned Rep x (card.toList ++ L)) (ev : KeyEvent) :
    ∃ x', emitCard cb x ev card = .ok x' ∧ x'.s = x.s.emit ev ∧ ShOk owned Rep x' L := by
  have h1 : ShOk owned Rep { x with mem := (nameBlk x.mem ev.name).1 }
      (card.toList ++ ((nameBlk x.mem ev.name).2.toList ++ L)) :=
    h.mem' ((nameBlk_ok h.own ev.name).perm (by perms))
  obtain ⟨x1, e1, s1, h2⟩ := call_ok hcb h1 ev (name := (nameBlk x.mem ev.name).2) (card := card)
    (fun _ ha => by simp [ha]) (fun a ha => by simp [ha])
  obtain ⟨m2, e2, h3⟩ := h2.freeOpt
  obtain ⟨m3, e3, h4⟩ := h3.freeOpt
  refine ⟨{ x1 with mem := m3 }, ?_, s1, h4⟩
  unfold emitCard
  simp only [e1, Res.bind_ok, e2]
  simp only at e3
  rw [e3]
  rfl

theorem LocOk.setPend {n0 k0 : Nat} {lm : Loc} {s : Shared} (h : LocOk n0 k0 lm s) (l : Local) (p : Option Nat)
    (hp : p.isSome = l.pending.isSome) : LocOk n0 k0 { lm with l := l, pend := p } s :=
  ⟨hp, h.errLe, h.err, h.warnLe, h.warn⟩

/-- Auxiliary: the blocks of the local variables besides the builder. -/
def restBlks (lm : Loc) : List Nat :=
  lm.lineExtra.toList ++ lm.nameExtra.toList ++ lm.err.toList ++ lm.warn.toList

theorem locBlks_eq (lm : Loc) : locBlks lm = lm.pend.toList ++ restBlks lm := by
  simp [locBlks, restBlks]

/-- Auxiliary: what is proved of a step with the local variables `lm'` and the state `x'`. -/
structure StepOk (owned : C → List Nat) (Rep : C → List KeyEvent → Prop) (w : World) (n0 k0 : Nat) (L : List Nat)
    (l' : Local) (s' : Shared) (lm' : Loc) (x' : Sh C) : Prop where
  l : lm'.l = l'
  s : x'.s = s'
  loc : LocOk n0 k0 lm' s'
  sh : ∃ leak, ShOk owned Rep x' (locBlks lm' ++ (leak ++ L)) ∧ (NoContinued w → leak = [])

theorem report_eq (l : Local) (s : Shared) (text : Bytes) :
    report l s text = ({ l with pending := none, cardIndex := l.cardIndex + 1 },
      s.emit ⟨l.name, some (cardText l.pending text), some l.cardIndex⟩) := by
  unfold report cardText
  cases l.pending <;> rfl

theorem reportM_ok (hcb : CallbackOk cb owned Rep) (w : World) {n0 k0 : Nat} {lm : Loc} {x : Sh C} {L : List Nat}
    {card : Option Nat} (hl : lm.err.isSome = decide (n0 < x.s.errors.length) ∧ n0 ≤ x.s.errors.length ∧
      lm.warn.isSome = decide (k0 < x.s.warnings.length) ∧ k0 ≤ x.s.warnings.length)
    (h : ShOk owned Rep x (locBlks lm ++ (card.toList ++ L))) (text : Bytes) {l' : Local} {s' : Shared}
    (e : report lm.l x.s text = (l', s')) :
    ∃ lm' x', reportM cb lm x text card = .ok (lm', x') ∧ StepOk owned Rep w n0 k0 L l' s' lm' x' := by
  have hr : ∃ m p, replaceCard x.mem lm.pend card = .ok (m, p) ∧ ShOk owned Rep { x with mem := m } (p.toList ++ (restBlks lm ++ L)) := by
    rw [locBlks_eq] at h
    cases hp : lm.pend with
    | none =>
      rw [hp] at h
      exact ⟨x.mem, card, rfl, h.perm (by perms)⟩
    | some b =>
      rw [hp] at h
      obtain ⟨m, e1, h1⟩ := (h.perm (L' := card.toList ++ ([b] ++ (restBlks lm ++ L))) (by perms)).freeOpt
      exact ⟨m, some b, by simp only [replaceCard, e1, Res.bind_ok], h1⟩
  obtain ⟨m, p, e1, h1⟩ := hr
  rw [report_eq] at e
  simp only [Prod.mk.injEq] at e
  obtain ⟨rfl, rfl⟩ := e
  obtain ⟨x2, e2, s2, h2⟩ := emitCard_ok hcb h1
    ⟨lm.l.name, some (cardText lm.l.pending text), some lm.l.cardIndex⟩
  refine ⟨{ lm with l := { lm.l with pending := none, cardIndex := lm.l.cardIndex + 1 }, pend := none }, x2, ?_, rfl, s2,
    ?_, [], ?_, fun _ => rfl⟩
  · unfold reportM
    rw [e1]
    simp only [Res.bind_ok]
    rw [e2]
    rfl
  · exact ⟨rfl, hl.2.1, hl.1, hl.2.2.2, hl.2.2.1⟩
  · rw [locBlks_eq]
    exact h2

theorem multiM_ok {lm : Loc} {x : Sh C} {L : List Nat} {card : Option Nat}
    (h : ShOk owned Rep x (locBlks lm ++ (card.toList ++ L))) {cells : Bytes} {mm : Multi}
    (e : multiLine lm.l.pending cells = .ok mm) :
    ∃ m b, multiM lm x cells card = .ok (mm, { lm with pend := some b }, { x with mem := m }) ∧
      ShOk owned Rep { x with mem := m } (b :: (restBlks lm ++ (card.toList ++ L))) := by
  rw [locBlks_eq, List.append_assoc] at h
  obtain ⟨m, b, e1, h1⟩ := h.realloc
  refine ⟨m, b, ?_, h1⟩
  unfold multiM
  rw [h.useOpt (fun a ha => by simp [ha])]
  simp only [Res.bind_ok, e1, e]

theorem continued_ok (w : World) {n0 k0 : Nat} {lm : Loc} {x : Sh C} {L : List Nat} {card : Option Nat} {b : Nat} {m : Mem}
    (hl : LocOk n0 k0 lm x.s) (h : ShOk owned Rep { x with mem := m } (b :: (restBlks lm ++ (card.toList ++ L)))) (t : Bytes) :
    ∃ lm' x', continued { lm with pend := some b } { x with mem := m } t card = .ok (lm', x') ∧
      StepOk owned Rep w n0 k0 L { lm.l with pending := some t } x.s lm' x' := by
  obtain ⟨m1, e1, h1⟩ := (h.perm (L' := card.toList ++ (b :: (restBlks lm ++ L))) (by perms)).freeOpt
  refine ⟨{ lm with pend := some b, l := { lm.l with pending := some t } }, { x with mem := m1 }, ?_, rfl, rfl,
    hl.setPend _ _ rfl, [], ?_, fun _ => rfl⟩
  · unfold continued
    simp only at e1
    simp only [e1, Res.bind_ok]
  · rw [locBlks_eq]
    exact h1

theorem multiReportM_ok (hcb : CallbackOk cb owned Rep) (w : World) {n0 k0 : Nat} {lm : Loc} {x : Sh C} {L : List Nat}
    {card : Option Nat} (hl : LocOk n0 k0 lm x.s)
    (h : ShOk owned Rep x (locBlks lm ++ (card.toList ++ L))) {cells : Bytes} {l' : Local} {s' : Shared}
    (e : multiReport lm.l x.s cells = .ok (l', s')) :
    ∃ lm' x', multiReportM cb lm x cells card = .ok (lm', x') ∧ StepOk owned Rep w n0 k0 L l' s' lm' x' := by
  unfold multiReport at e
  obtain ⟨mm, e0, e⟩ := bind_ok_inv e
  obtain ⟨m, b, e1, h1⟩ := multiM_ok h e0
  unfold multiReportM
  rw [e1]
  simp only [Res.bind_ok]
  cases mm with
  | more t =>
    simp only [Res.ok.injEq, Prod.mk.injEq] at e
    obtain ⟨rfl, rfl⟩ := e
    exact continued_ok w hl h1 t
  | done t =>
    simp only [Res.ok.injEq] at e
    exact reportM_ok hcb w (lm := { lm with pend := some b, l := { lm.l with pending := none } })
      (x := { x with mem := m }) ⟨hl.err, hl.errLe, hl.warn, hl.warnLe⟩ (by rw [locBlks_eq]; exact h1.perm (by simp only [restBlks]; perms)) t e

theorem error_inv {s s' : Shared} {msg : Bytes} (h : s.error msg = .ok s') :
    s' = { s with errors := s.errors ++ [msg] } := by
  unfold Shared.error at h
  obtain ⟨e, h1, h2⟩ := bind_ok_inv h
  unfold pushF at h1
  split at h1
  · cases h1; cases h2; rfl
  · cases h1

theorem warn_inv {s s' : Shared} {msg : Bytes} (h : s.warn msg = .ok s') :
    s' = { s with warnings := s.warnings ++ [msg] } := by
  unfold Shared.warn at h
  obtain ⟨e, h1, h2⟩ := bind_ok_inv h
  unfold pushF at h1
  split at h1
  · cases h1; cases h2; rfl
  · cases h1

/-- Auxiliary: the stacks of messages of a file. -/
structure MsgOk (n0 k0 : Nat) (lm : Loc) (s : Shared) : Prop where
  errLe : n0 ≤ s.errors.length
  err : lm.err.isSome = decide (n0 < s.errors.length)
  warnLe : k0 ≤ s.warnings.length
  warn : lm.warn.isSome = decide (k0 < s.warnings.length)

theorem LocOk.msg {n0 k0 : Nat} {lm : Loc} {s : Shared} (h : LocOk n0 k0 lm s) : MsgOk n0 k0 lm s :=
  ⟨h.errLe, h.err, h.warnLe, h.warn⟩

theorem errorM_ok {n0 k0 : Nat} {lm : Loc} {x : Sh C} {L : List Nat} (hl : MsgOk n0 k0 lm x.s)
    (h : ShOk owned Rep x (lm.err.toList ++ L)) {msg : Bytes} {s' : Shared} (e : x.s.error msg = .ok s') :
    ∃ b x', errorM lm x msg = .ok ({ lm with err := some b }, x') ∧ x'.s = s' ∧
      MsgOk n0 k0 { lm with err := some b } s' ∧ ShOk owned Rep x' (b :: L) := by
  obtain ⟨m, b, e1, h1⟩ := h.push
  have hs := error_inv e
  refine ⟨b, { x with s := s', mem := m }, ?_, rfl, ?_, ?_⟩
  · unfold errorM
    rw [e]
    simp only [Res.bind_ok, e1]
  · subst hs
    have h1 := hl.errLe
    refine ⟨by simp only [List.length_append]; omega, ?_, hl.warnLe, hl.warn⟩
    simp only [List.length_append, List.length_singleton, Option.isSome_some]
    exact (decide_eq_true (by omega)).symm
  · subst hs
    exact ⟨h1.len, h1.rep, h1.own⟩

theorem warnM_ok {n0 k0 : Nat} {lm : Loc} {x : Sh C} {L : List Nat} (hl : MsgOk n0 k0 lm x.s)
    (h : ShOk owned Rep x (lm.warn.toList ++ L)) {msg : Bytes} {s' : Shared} (e : x.s.warn msg = .ok s') :
    ∃ b x', warnM lm x msg = .ok ({ lm with warn := some b }, x') ∧ x'.s = s' ∧
      MsgOk n0 k0 { lm with warn := some b } s' ∧ ShOk owned Rep x' (b :: L) := by
  obtain ⟨m, b, e1, h1⟩ := h.push
  have hs := warn_inv e
  refine ⟨b, { x with s := s', mem := m }, ?_, rfl, ?_, ?_⟩
  · unfold warnM
    rw [e]
    simp only [Res.bind_ok, e1]
  · subst hs
    have h1 := hl.warnLe
    refine ⟨hl.errLe, hl.err, by simp only [List.length_append]; omega, ?_⟩
    simp only [List.length_append, List.length_singleton, Option.isSome_some]
    exact (decide_eq_true (by omega)).symm
  · subst hs
    exact ⟨h1.len, h1.rep, h1.own⟩

theorem takeOver_ok {m : Mem} {stack p : Option Nat} {L : List Nat} (h : Owns m (stack.toList ++ (p.toList ++ L))) :
    ∃ m' q, takeOver m stack p = .ok (m', q) ∧ Owns m' (q.toList ++ L) ∧ q.isSome = (stack.isSome || p.isSome) := by
  cases p with
  | none => exact ⟨m, stack, rfl, h, by simp⟩
  | some b =>
    obtain ⟨m1, b1, e1, h1⟩ := push_ok h
    obtain ⟨m2, e2, h2⟩ := free_ok (h1.perm (L' := b :: (b1 :: L)) (by perms))
    refine ⟨m2, some b1, ?_, h2, by simp⟩
    simp only [takeOver]
    rw [use_ok h (by simp)]
    simp only [Res.bind_ok, e1, e2]

theorem resolveM_ok {w : World} {pend : Option Nat} {name : Bytes} {r : Option Bytes} :
    ∀ {paths : List Bytes} {blks : List Nat} {m : Mem} {L : List Nat}, Owns m L → blks ⊆ L → pend.toList ⊆ L →
      blks.length = paths.length → resolve w paths name = .ok r →
      ∃ m' q, resolveM w pend name paths blks m = .ok (m', q) ∧ q.map Prod.fst = r ∧
        Owns m' ((q.map Prod.snd).toList ++ L) := by
  intro paths
  induction paths with
  | nil =>
    intro blks m L h _ _ _ e
    simp only [resolve, Res.ok.injEq] at e
    subst e
    exact ⟨m, none, rfl, rfl, h⟩
  | cons p ps ih =>
    intro blks m L h hb hp hlen e
    cases blks with
    | nil => simp at hlen
    | cons b blks =>
      simp only [resolve] at e
      obtain ⟨full, e1, e2⟩ := bind_ok_inv e
      simp only [resolveM]
      rw [use_ok h (hb (by simp)), useOpt_ok h hp, e1]
      simp only [Res.bind_ok]
      split at e2
      · rename_i hf
        cases e2
        rw [if_pos hf]
        exact ⟨_, _, rfl, rfl, alloc_ok h⟩
      · rename_i hf
        rw [if_neg hf]
        obtain ⟨m1, e3, h3⟩ := free_ok (alloc_ok h)
        rw [e3]
        simp only [Res.bind_ok]
        exact ih h3 (fun a ha => hb (by simp [ha])) hp (by simpa using hlen) e2

/-- Auxiliary: the call for an included file has the same effects as without memory, and leaves its messages and
what it has lost. -/
def IncMOk (owned : C → List Nat) (Rep : C → List KeyEvent → Prop) (w : World) (rootBlk : Nat)
    (inc : Bytes → Shared → Res Shared) (incM : Inc C) : Prop :=
  ∀ f (x : Sh C) s' L, inc f x.s = .ok s' → ShOk owned Rep x L → rootBlk ∈ L →
    ∃ x' e v leak, incM f x = .ok (x', e, v) ∧ x'.s = s' ∧
      x.s.errors.length ≤ s'.errors.length ∧ e.isSome = decide (x.s.errors.length < s'.errors.length) ∧
      x.s.warnings.length ≤ s'.warnings.length ∧ v.isSome = decide (x.s.warnings.length < s'.warnings.length) ∧
      ShOk owned Rep x' (e.toList ++ (v.toList ++ (leak ++ L))) ∧ (NoContinued w → leak = [])

theorem includeFileM_ok {w : World} {cfg : Config} {rootBlk : Nat} {inc : Bytes → Shared → Res Shared} {incM : Inc C}
    (hinc : IncMOk owned Rep w rootBlk inc incM) {n0 k0 : Nat} {lm : Loc} {x : Sh C} {L : List Nat}
    (hl : MsgOk n0 k0 lm x.s) (hr : rootBlk ∈ L) (h : ShOk owned Rep x (locBlks lm ++ L)) {file name : Bytes} {s' : Shared}
    (e : includeFile w cfg inc file lm.l.lineCount x.s name = .ok s') :
    ∃ e' v' x' leak, includeFileM w cfg incM file lm x name = .ok ({ lm with err := e', warn := v' }, x') ∧ x'.s = s' ∧
      MsgOk n0 k0 { lm with err := e', warn := v' } s' ∧
      ShOk owned Rep x' (locBlks { lm with err := e', warn := v' } ++ (leak ++ L)) ∧ (NoContinued w → leak = []) := by
  unfold includeFile at e
  obtain ⟨r, e0, e⟩ := bind_ok_inv e
  obtain ⟨m1, q, e1, hq, h1⟩ := resolveM_ok (pend := lm.pend) h.own (blks := x.blks) (fun a ha => by simp [ha])
    (fun a ha => by rw [locBlks_eq]; simp at ha; simp [ha]) h.len e0
  unfold includeFileM
  rw [use_ok h.own (by simp)]
  simp only [Res.bind_ok, e1]
  cases q with
  | some fb =>
    obtain ⟨full, fblk⟩ := fb
    simp only [Option.map_some] at hq
    subst hq
    simp only at e
    have h2 : ShOk owned Rep { x with mem := m1 } (fblk :: (locBlks lm ++ L)) :=
      h.mem' (h1.perm (by simp only [Option.map_some]; perms))
    obtain ⟨x2, ee, vv, leak, e2, s2, le1, is1, le2, is2, h3, hk⟩ := hinc full { x with mem := m1 } s' _ e h2
      (by simp [hr])
    simp only [e2, Res.bind_ok]
    obtain ⟨m3, e3, h4⟩ := free_ok (m := x2.mem) (b := fblk)
      (L := lm.err.toList ++ (ee.toList ++ (lm.pend.toList ++ lm.lineExtra.toList ++ lm.nameExtra.toList ++
        lm.warn.toList ++ vv.toList ++ leak ++ L ++ x2.arr :: x2.blks ++ owned x2.user)))
      (h3.own.perm (by simp only [locBlks]; perms))
    obtain ⟨m4, q4, e4, h5, i4⟩ := takeOver_ok h4
    obtain ⟨m5, q5, e5, h6, i5⟩ := takeOver_ok (m := m4) (stack := lm.warn) (p := vv)
      (L := q4.toList ++ (lm.pend.toList ++ lm.lineExtra.toList ++ lm.nameExtra.toList ++
        leak ++ L ++ x2.arr :: x2.blks ++ owned x2.user)) (h5.perm (by perms))
    refine ⟨q4, q5, { x2 with mem := m5 }, leak, ?_, s2, ?_, ?_, hk⟩
    · simp only [e3, Res.bind_ok, e4, e5]
    · have a1 := hl.errLe
      have a2 := hl.warnLe
      simp only at le1 le2 is1 is2
      refine ⟨by omega, ?_, by omega, ?_⟩
      · simp only [i4, hl.err, is1]
        rw [← Bool.decide_or]
        exact decide_eq_decide.2 (by omega)
      · simp only [i5, hl.warn, is2]
        rw [← Bool.decide_or]
        exact decide_eq_decide.2 (by omega)
    · refine ⟨h3.len, h3.rep, h6.perm ?_⟩
      simp only [locBlks]
      perms
  | none =>
    simp only [Option.map_none] at hq
    subst hq
    simp only at e
    have h2 : ShOk owned Rep { x with mem := m1 } (locBlks lm ++ L) := h.mem' h1
    have hu : m1.useOpt lm.pend = .ok () := useOpt_ok h2.own (fun a ha => by
      rw [locBlks_eq]; simp at ha; simp [ha])
    simp only [hu, Res.bind_ok]
    by_cases hi : cfg.ignoreNotFound = true
    · rw [if_pos hi] at e
      rw [if_pos hi]
      obtain ⟨b, x3, e3, s3, l3, h3⟩ := warnM_ok (lm := lm) (x := { x with mem := m1 }) hl
        (L := lm.pend.toList ++ lm.lineExtra.toList ++ lm.nameExtra.toList ++ lm.err.toList ++ L)
        (h2.perm (by simp only [locBlks]; perms)) e
      exact ⟨lm.err, some b, x3, [], e3, s3, l3, h3.perm (by simp only [locBlks]; perms), fun _ => rfl⟩
    · rw [if_neg hi] at e
      rw [if_neg hi]
      obtain ⟨b, x3, e3, s3, l3, h3⟩ := errorM_ok (lm := lm) (x := { x with mem := m1 }) hl
        (L := lm.pend.toList ++ lm.lineExtra.toList ++ lm.nameExtra.toList ++ lm.warn.toList ++ L)
        (h2.perm (by simp only [locBlks]; perms)) e
      exact ⟨some b, lm.warn, x3, [], e3, s3, l3, h3.perm (by simp only [locBlks]; perms), fun _ => rfl⟩

theorem includePathM_ok {w : World} {n0 k0 : Nat} {lm : Loc} {x : Sh C} {L : List Nat} {card : Option Nat}
    (hl : LocOk n0 k0 lm x.s) (h : ShOk owned Rep x (locBlks lm ++ (card.toList ++ L))) {file cells : Bytes}
    {l' : Local} {s' : Shared}
    (e : includePath w (bs "INCLUDE_PATH") (fun n => .ok n) file lm.l x.s cells = .ok (l', s')) :
    ∃ lm' x', includePathM w file lm x cells card = .ok (lm', x') ∧ StepOk owned Rep w n0 k0 L l' s' lm' x' := by
  unfold includePath at e
  obtain ⟨mm, e0, e⟩ := bind_ok_inv e
  obtain ⟨m, b, e1, h1⟩ := multiM_ok h e0
  unfold includePathM
  rw [e1]
  simp only [Res.bind_ok]
  cases mm with
  | more t =>
    simp only [Res.ok.injEq, Prod.mk.injEq] at e
    obtain ⟨rfl, rfl⟩ := e
    exact continued_ok w hl h1 t
  | done name =>
    simp only [Res.bind_ok] at e
    by_cases hd : w.isDir name = true
    · rw [if_pos hd] at e
      simp only
      rw [if_pos hd]
      simp only [Res.ok.injEq, Prod.mk.injEq] at e
      obtain ⟨rfl, rfl⟩ := e
      obtain ⟨m2, a2, e2, h2⟩ := realloc_ok (m := m) (p := some x.arr)
        (L := card.toList ++ (b :: (restBlks lm ++ L) ++ x.blks ++ owned x.user)) (h1.own.perm (by perms))
      obtain ⟨m3, e3, h3⟩ := freeOpt_ok (m := m2) (p := card)
        (L := a2 :: (b :: (restBlks lm ++ L) ++ x.blks ++ owned x.user)) (h2.perm (by perms))
      simp only [e2, Res.bind_ok, e3]
      refine ⟨_, _, rfl, rfl, rfl, ⟨rfl, hl.errLe, hl.err, hl.warnLe, hl.warn⟩, [], ⟨?_, h1.rep, ?_⟩, fun _ => rfl⟩
      · simp only [List.length_append, h.len, List.length_singleton]
      · rw [locBlks_eq]
        refine h3.perm ?_
        simp only [restBlks]
        perms
    · rw [if_neg hd] at e
      obtain ⟨s1, e2, e3⟩ := bind_ok_inv e
      simp only [Res.ok.injEq, Prod.mk.injEq] at e3
      obtain ⟨rfl, rfl⟩ := e3
      simp only
      rw [if_neg hd, use_ok h1.own (by simp)]
      simp only [Res.bind_ok]
      obtain ⟨b2, x2, e4, s4, l4, h4⟩ := warnM_ok
        (lm := { lm with l := { lm.l with pending := none, cardIndex := lm.l.cardIndex + 1 }, pend := none })
        (x := { x with mem := m }) ⟨hl.errLe, hl.err, hl.warnLe, hl.warn⟩
        (L := b :: (card.toList ++ (lm.lineExtra.toList ++ lm.nameExtra.toList ++ lm.err.toList ++ L)))
        (h1.perm (by simp only [restBlks]; perms)) e2
      simp only at e4
      simp only [e4, Res.bind_ok]
      obtain ⟨m5, e5, h5⟩ := (h4.perm (L' := (some b).toList ++ (card.toList ++ (b2 :: (lm.lineExtra.toList ++
        lm.nameExtra.toList ++ lm.err.toList ++ L)))) (by perms)).freeOpt
      obtain ⟨m6, e6, h6⟩ := h5.freeOpt
      have e5' : x2.mem.free b = .ok m5 := e5
      have e6' : m5.freeOpt card = .ok m6 := e6
      simp only [e5', Res.bind_ok, e6']
      refine ⟨_, _, rfl, rfl, s4, ⟨rfl, l4.errLe, l4.err, l4.warnLe, l4.warn⟩, [], ?_, fun _ => rfl⟩
      refine h6.perm ?_
      simp only [locBlks]
      perms

theorem includeRelM_ok {w : World} {root : Bytes} {rootBlk : Nat} {n0 k0 : Nat} {lm : Loc} {x : Sh C} {L : List Nat}
    {card : Option Nat} (hr : rootBlk ∈ L)
    (hl : LocOk n0 k0 lm x.s) (h : ShOk owned Rep x (locBlks lm ++ (card.toList ++ L))) {file cells : Bytes}
    {l' : Local} {s' : Shared}
    (e : includePath w (bs "INCLUDE_PATH_RELATIVE") (fun n => pathJoin root n) file lm.l x.s cells = .ok (l', s')) :
    ∃ lm' x', includeRelM w root rootBlk file lm x cells card = .ok (lm', x') ∧
      StepOk owned Rep w n0 k0 L l' s' lm' x' := by
  unfold includePath at e
  obtain ⟨mm, e0, e⟩ := bind_ok_inv e
  obtain ⟨m, b, e1, h1⟩ := multiM_ok h e0
  unfold includeRelM
  rw [e1]
  simp only [Res.bind_ok]
  cases mm with
  | more t =>
    simp only [Res.ok.injEq, Prod.mk.injEq] at e
    obtain ⟨rfl, rfl⟩ := e
    exact continued_ok w hl h1 t
  | done name =>
    simp only at e
    obtain ⟨path, ej, e⟩ := bind_ok_inv e
    have hu : m.useOpt (some b) = .ok () := useOpt_ok h1.own (fun a ha => by simp at ha; simp [ha])
    simp only [ej, use_ok h1.own (b := rootBlk) (by simp [hr]), hu, Res.bind_ok]
    obtain ⟨m2, e2, h2⟩ := freeOpt_ok (m := m.alloc.1) (p := some b)
      (L := m.alloc.2 :: (restBlks lm ++ (card.toList ++ L) ++ x.arr :: x.blks ++ owned x.user))
      ((alloc_ok h1.own).perm (by perms))
    simp only [e2, Res.bind_ok]
    generalize m.alloc.2 = f at h2
    by_cases hd : w.isDir path = true
    · rw [if_pos hd] at e
      rw [if_pos hd]
      simp only [Res.ok.injEq, Prod.mk.injEq] at e
      obtain ⟨rfl, rfl⟩ := e
      obtain ⟨m3, a3, e3, h3⟩ := realloc_ok (m := m2) (p := some x.arr)
        (L := card.toList ++ (f :: (restBlks lm ++ L) ++ x.blks ++ owned x.user)) (h2.perm (by perms))
      obtain ⟨m4, e4, h4⟩ := freeOpt_ok (m := m3) (p := card)
        (L := a3 :: (f :: (restBlks lm ++ L) ++ x.blks ++ owned x.user)) (h3.perm (by perms))
      simp only [e3, Res.bind_ok, e4]
      refine ⟨_, _, rfl, rfl, rfl, ⟨rfl, hl.errLe, hl.err, hl.warnLe, hl.warn⟩, [], ⟨?_, h1.rep, ?_⟩, fun _ => rfl⟩
      · simp only [List.length_append, h.len, List.length_singleton]
      · rw [locBlks_eq]
        refine h4.perm ?_
        simp only [restBlks]
        perms
    · rw [if_neg hd] at e
      obtain ⟨s1, e3, e4⟩ := bind_ok_inv e
      simp only [Res.ok.injEq, Prod.mk.injEq] at e4
      obtain ⟨rfl, rfl⟩ := e4
      rw [if_neg hd]
      have h2' : ShOk owned Rep { x with mem := m2 } (f :: (restBlks lm ++ (card.toList ++ L))) :=
        h.mem' (h2.perm (by perms))
      obtain ⟨b2, x2, e4, s4, l4, h4⟩ := warnM_ok
        (lm := { lm with l := { lm.l with pending := none, cardIndex := lm.l.cardIndex + 1 }, pend := none })
        (x := { x with mem := m2 }) ⟨hl.errLe, hl.err, hl.warnLe, hl.warn⟩
        (L := f :: (card.toList ++ (lm.lineExtra.toList ++ lm.nameExtra.toList ++ lm.err.toList ++ L)))
        (h2'.perm (by simp only [restBlks]; perms)) e3
      simp only at e4
      simp only [e4, Res.bind_ok]
      obtain ⟨m5, e5, h5⟩ := (h4.perm (L' := (some f).toList ++ (card.toList ++ (b2 :: (lm.lineExtra.toList ++
        lm.nameExtra.toList ++ lm.err.toList ++ L)))) (by perms)).freeOpt
      obtain ⟨m6, e6, h6⟩ := h5.freeOpt
      have e5' : x2.mem.free f = .ok m5 := e5
      have e6' : m5.freeOpt card = .ok m6 := e6
      simp only [e5', Res.bind_ok, e6']
      refine ⟨_, _, rfl, rfl, s4, ⟨rfl, l4.errLe, l4.err, l4.warnLe, l4.warn⟩, [], ?_, fun _ => rfl⟩
      refine h6.perm ?_
      simp only [locBlks]
      perms

theorem superfluousM_ok {w : World} {n0 k0 : Nat} {lm : Loc} {x : Sh C} {L : List Nat} {card : Option Nat}
    (hl : LocOk n0 k0 lm x.s) (h : ShOk owned Rep x (locBlks lm ++ (card.toList ++ L))) {kind file : Bytes} {b : Bool}
    {l' : Local} {s' : Shared} (e : superfluous kind b file lm.l x.s = .ok (l', s')) :
    ∃ lm' x', superfluousM kind b file lm x card = .ok (lm', x') ∧ StepOk owned Rep w n0 k0 L l' s' lm' x' := by
  unfold superfluous at e
  unfold superfluousM warnIf
  cases b with
  | true =>
    simp only [if_true] at e ⊢
    obtain ⟨s1, e1, e⟩ := bind_ok_inv e
    simp only [Res.ok.injEq, Prod.mk.injEq] at e
    obtain ⟨rfl, rfl⟩ := e
    obtain ⟨b2, x2, e2, s2, l2, h2⟩ := warnM_ok (lm := lm) hl.msg
      (L := card.toList ++ (lm.pend.toList ++ lm.lineExtra.toList ++ lm.nameExtra.toList ++ lm.err.toList ++ L))
      (h.perm (by simp only [locBlks]; perms)) e1
    obtain ⟨m3, e3, h3⟩ := (h2.perm (L' := card.toList ++ (b2 :: (lm.pend.toList ++ lm.lineExtra.toList ++
      lm.nameExtra.toList ++ lm.err.toList ++ L))) (by perms)).freeOpt
    simp only [e2, Res.bind_ok, e3]
    refine ⟨_, _, rfl, rfl, s2, ⟨hl.pend, l2.errLe, l2.err, l2.warnLe, l2.warn⟩, [], ?_, fun _ => rfl⟩
    refine h3.perm ?_
    simp only [locBlks]
    perms
  | false =>
    simp only [Bool.false_eq_true, if_false, Res.bind_ok, Res.ok.injEq, Prod.mk.injEq] at e ⊢
    obtain ⟨rfl, rfl⟩ := e
    obtain ⟨m3, e3, h3⟩ := (h.perm (L' := card.toList ++ (locBlks lm ++ L)) (by perms)).freeOpt
    simp only [e3, Res.bind_ok]
    exact ⟨_, _, rfl, rfl, rfl, ⟨hl.pend, hl.errLe, hl.err, hl.warnLe, hl.warn⟩, [], h3, fun _ => rfl⟩

theorem includeCardM_ok (hcb : CallbackOk cb owned Rep) {w : World} {cfg : Config} {root : Bytes} {rootBlk : Nat}
    {inc : Bytes → Shared → Res Shared} {incM : Inc C} (hinc : IncMOk owned Rep w rootBlk inc incM)
    {n0 k0 : Nat} {lm : Loc} {x : Sh C} {L : List Nat} {card : Option Nat} (hr : rootBlk ∈ L)
    (hl : LocOk n0 k0 lm x.s) (h : ShOk owned Rep x (locBlks lm ++ (card.toList ++ L))) {file cells : Bytes}
    {l' : Local} {s' : Shared} (e : includeCard w cfg root inc file lm.l x.s cells = .ok (l', s')) :
    ∃ lm' x', includeCardM w cfg root rootBlk cb incM file lm x cells card = .ok (lm', x') ∧
      StepOk owned Rep w n0 k0 L l' s' lm' x' := by
  unfold includeCard at e
  unfold includeCardM
  split at e
  · rename_i hc
    rw [if_pos hc]
    obtain ⟨mm, e0, e⟩ := bind_ok_inv e
    obtain ⟨m, b, e1, h1⟩ := multiM_ok h e0
    simp only [e1, Res.bind_ok]
    cases mm with
    | more t =>
      simp only [Res.ok.injEq, Prod.mk.injEq] at e
      obtain ⟨rfl, rfl⟩ := e
      exact continued_ok w hl h1 t
    | done name =>
      simp only at e
      obtain ⟨s1, e2, e3⟩ := bind_ok_inv e
      simp only [Res.ok.injEq, Prod.mk.injEq] at e3
      obtain ⟨rfl, rfl⟩ := e3
      obtain ⟨e', v', x2, leak, e4, s4, l4, h4, hk⟩ := includeFileM_ok (lm := { lm with pend := some b })
        (x := { x with mem := m }) (L := card.toList ++ L) hinc ⟨hl.errLe, hl.err, hl.warnLe, hl.warn⟩ (by simp [hr])
        (by rw [locBlks_eq]; exact h1) e2
      obtain ⟨m5, e5, h5⟩ := (h4.perm (L' := (some b).toList ++ (card.toList ++
        (locBlks { lm with pend := none, err := e', warn := v' } ++ (leak ++ L))))
        (by simp only [locBlks]; perms)).freeOpt
      obtain ⟨m6, e6, h6⟩ := h5.freeOpt
      simp only [e4, Res.bind_ok, e5]
      have e6' : m5.freeOpt card = .ok m6 := e6
      simp only [e6', Res.bind_ok]
      exact ⟨_, _, rfl, rfl, s4, ⟨rfl, l4.errLe, l4.err, l4.warnLe, l4.warn⟩, leak, h6, hk⟩
  · rename_i hc
    rw [if_neg hc]
    split at e
    · rename_i hc
      rw [if_pos hc]
      exact includePathM_ok hl h e
    · rename_i hc
      rw [if_neg hc]
      split at e
      · rename_i hc
        rw [if_pos hc]
        exact includeRelM_ok hr hl h e
      · rename_i hc
        rw [if_neg hc]
        split at e
        · rename_i hc
          rw [if_pos hc]
          exact superfluousM_ok hl h e
        · rename_i hc
          rw [if_neg hc]
          split at e
          · rename_i hc
            rw [if_pos hc]
            exact superfluousM_ok hl h e
          · rename_i hc
            rw [if_neg hc]
            split at e
            · rename_i hc
              rw [if_pos hc]
              exact reportM_ok hcb w ⟨hl.err, hl.errLe, hl.warn, hl.warnLe⟩ h _ (Res.ok.inj e)
            · rename_i hc
              rw [if_neg hc]
              split at e
              · rename_i hc
                rw [if_pos hc]
                exact multiReportM_ok hcb w hl h e
              · rename_i hc
                rw [if_neg hc]
                exact reportM_ok hcb w ⟨hl.err, hl.errLe, hl.warn, hl.warnLe⟩ h _ (Res.ok.inj e)

theorem cardStepM_ok (hcb : CallbackOk cb owned Rep) {w : World} {cfg : Config} {root : Bytes} {rootBlk : Nat}
    {inc : Bytes → Shared → Res Shared} {incM : Inc C} (hinc : IncMOk owned Rep w rootBlk inc incM)
    {n0 k0 : Nat} {lm : Loc} {x : Sh C} {L : List Nat} (hr : rootBlk ∈ L)
    (hl : LocOk n0 k0 lm x.s) (h : ShOk owned Rep x (locBlks lm ++ L)) {file cells : Bytes}
    {l' : Local} {s' : Shared} (e : cardStep w cfg root inc file lm.l x.s cells = .ok (l', s')) :
    ∃ lm' x', cardStepM w cfg root rootBlk cb incM file lm x cells = .ok (lm', x') ∧
      StepOk owned Rep w n0 k0 L l' s' lm' x' := by
  have h1 : ShOk owned Rep { x with mem := (cardBlk x.mem cells).1 }
      (locBlks lm ++ ((cardBlk x.mem cells).2.toList ++ L)) := h.mem' ((cardBlk_ok h.own cells).perm (by perms))
  unfold cardStep at e
  unfold cardStepM
  dsimp only
  split at e
  · rename_i hc
    rw [if_pos hc]
    split at e
    · rename_i hc
      rw [if_pos hc]
      exact includeCardM_ok (x := { x with mem := (cardBlk x.mem cells).1 }) hcb hinc hr hl h1 e
    · rename_i hc
      rw [if_neg hc]
      unfold includeCardOff at e
      unfold includeCardOffM
      split at e
      · rename_i hc
        rw [if_pos hc]
        exact reportM_ok (x := { x with mem := (cardBlk x.mem cells).1 })  hcb w ⟨hl.err, hl.errLe, hl.warn, hl.warnLe⟩ h1 _ (Res.ok.inj e)
      · rename_i hc
        rw [if_neg hc]
        split at e
        · rename_i hc
          rw [if_pos hc]
          exact multiReportM_ok (x := { x with mem := (cardBlk x.mem cells).1 }) hcb w hl h1 e
        · rename_i hc
          rw [if_neg hc]
          exact reportM_ok (x := { x with mem := (cardBlk x.mem cells).1 })  hcb w ⟨hl.err, hl.errLe, hl.warn, hl.warnLe⟩ h1 _ (Res.ok.inj e)
  · rename_i hc
    rw [if_neg hc]
    exact reportM_ok (x := { x with mem := (cardBlk x.mem cells).1 })  hcb w ⟨hl.err, hl.errLe, hl.warn, hl.warnLe⟩ h1 _ (Res.ok.inj e)

theorem readM_ok {n0 k0 : Nat} {lm : Loc} {x : Sh C} {L : List Nat} (hl : LocOk n0 k0 lm x.s)
    (h : ShOk owned Rep x (locBlks lm ++ L)) (len : Nat) :
    ∃ m lm', readM x.mem lm len = .ok (m, lm') ∧ lm'.l = lm.l ∧ LocOk n0 k0 lm' x.s ∧
      ShOk owned Rep { x with mem := m } (locBlks lm' ++ L) := by
  unfold readM
  split
  · obtain ⟨m, b, e1, h1⟩ := (h.perm (L' := lm.lineExtra.toList ++ (lm.pend.toList ++ lm.nameExtra.toList ++
      lm.err.toList ++ lm.warn.toList ++ L)) (by simp only [locBlks]; perms)).realloc
    simp only [e1, Res.bind_ok]
    exact ⟨_, _, rfl, rfl, ⟨hl.pend, hl.errLe, hl.err, hl.warnLe, hl.warn⟩,
      h1.perm (by simp only [locBlks]; perms)⟩
  · exact ⟨_, _, rfl, rfl, hl, h⟩

theorem nameM_ok {n0 k0 : Nat} {lm : Loc} {x : Sh C} {L : List Nat} (hl : LocOk n0 k0 lm x.s)
    (h : ShOk owned Rep x (locBlks lm ++ L)) (len : Nat) :
    ∃ m lm', nameM x.mem lm len = .ok (m, lm') ∧ lm'.l = lm.l ∧ LocOk n0 k0 lm' x.s ∧
      ShOk owned Rep { x with mem := m } (locBlks lm' ++ L) := by
  unfold nameM
  split
  · obtain ⟨m, b, e1, h1⟩ := (h.perm (L' := lm.nameExtra.toList ++ (lm.pend.toList ++ lm.lineExtra.toList ++
      lm.err.toList ++ lm.warn.toList ++ L)) (by simp only [locBlks]; perms)).realloc
    simp only [e1, Res.bind_ok]
    exact ⟨_, _, rfl, rfl, ⟨hl.pend, hl.errLe, hl.err, hl.warnLe, hl.warn⟩,
      h1.perm (by simp only [locBlks]; perms)⟩
  · exact ⟨_, _, rfl, rfl, hl, h⟩

theorem LocOk.setL {n0 k0 : Nat} {lm : Loc} {s : Shared} (h : LocOk n0 k0 lm s) (l : Local)
    (hp : l.pending = lm.l.pending) : LocOk n0 k0 { lm with l := l } s :=
  ⟨by simp only [hp]; exact h.pend, h.errLe, h.err, h.warnLe, h.warn⟩

theorem closeKeywordM_ok (hcb : CallbackOk cb owned Rep) {lm : Loc} {x : Sh C} {L : List Nat}
    (h : ShOk owned Rep x L) :
    ∃ x', closeKeywordM cb lm x = .ok x' ∧ x'.s = closeKeyword lm.l x.s ∧ ShOk owned Rep x' L := by
  unfold closeKeywordM closeKeyword
  split
  · exact emitCard_ok hcb (card := none) h _
  · exact ⟨x, rfl, rfl, h⟩

theorem closeKeyword_msgs (l : Local) (s : Shared) :
    (closeKeyword l s).errors = s.errors ∧ (closeKeyword l s).warnings = s.warnings := by
  unfold closeKeyword
  split
  · exact ⟨rfl, rfl⟩
  · exact ⟨rfl, rfl⟩

theorem LocOk.same {n0 k0 : Nat} {lm : Loc} {s s' : Shared} (h : LocOk n0 k0 lm s) (he : s'.errors = s.errors)
    (hw : s'.warnings = s.warnings) : LocOk n0 k0 lm s' :=
  ⟨h.pend, by rw [he]; exact h.errLe, by rw [he]; exact h.err, by rw [hw]; exact h.warnLe, by rw [hw]; exact h.warn⟩

theorem linesLoopM_ok (hcb : CallbackOk cb owned Rep) {w : World} {cfg : Config} {root : Bytes} {rootBlk : Nat}
    {inc : Bytes → Shared → Res Shared} {incM : Inc C} (hinc : IncMOk owned Rep w rootBlk inc incM)
    {n0 k0 : Nat} {file : Bytes} (lines : List Line) :
    ∀ {lm : Loc} {x : Sh C} {L : List Nat}, rootBlk ∈ L → LocOk n0 k0 lm x.s → ShOk owned Rep x (locBlks lm ++ L) →
      ∀ {l' : Local} {s' : Shared}, linesLoop w cfg root inc file lines lm.l x.s = .ok (l', s') →
      ∃ lm' x', linesLoopM w cfg root rootBlk cb incM file lines lm x = .ok (lm', x') ∧
        StepOk owned Rep w n0 k0 L l' s' lm' x' := by
  induction lines with
  | nil =>
    intro lm x L _ hl h l' s' e
    simp only [linesLoop, Res.ok.injEq, Prod.mk.injEq] at e
    obtain ⟨rfl, rfl⟩ := e
    exact ⟨lm, x, rfl, rfl, rfl, hl, [], h, fun _ => rfl⟩
  | cons line lines ih =>
    intro lm x L hr hl h l' s' e
    obtain ⟨m1, lm1, e1, q1, hl1, h1⟩ := readM_ok hl h line.text.length
    simp only [linesLoop] at e
    simp only [linesLoopM, e1, Res.bind_ok]
    have hl2 : LocOk n0 k0 { lm1 with l := { lm1.l with lineCount := lm1.l.lineCount + 1 } } x.s :=
      hl1.setL _ rfl
    rw [← q1] at e
    by_cases hc : line.comment = some 0
    · rw [if_pos hc] at e
      rw [if_pos hc]
      exact ih (lm := { lm1 with l := { lm1.l with lineCount := lm1.l.lineCount + 1 } }) (x := { x with mem := m1 })
        hr hl2 h1 e
    · rw [if_neg hc] at e
      rw [if_neg hc]
      by_cases hk : isKeyword (lineCells line) = true
      · rw [if_pos hk] at e
        rw [if_pos hk]
        obtain ⟨name, e2, e⟩ := bind_ok_inv e
        obtain ⟨x3, e3, s3, h3⟩ := closeKeywordM_ok hcb (x := { x with mem := m1 })
          (lm := { lm1 with l := { lm1.l with lineCount := lm1.l.lineCount + 1 } }) h1
        simp only [e3, Res.bind_ok, e2]
        simp only at s3
        have hm := closeKeyword_msgs { lm1.l with lineCount := lm1.l.lineCount + 1 } x.s
        rw [← s3] at e hm
        obtain ⟨m4, lm4, e4, q4, hl4, h4⟩ := nameM_ok (hl2.same (s' := x3.s) hm.1 hm.2) h3 (lineCells line).length
        simp only [e4, Res.bind_ok]
        by_cases hn : name = bs "END"
        · rw [if_pos hn] at e
          rw [if_pos hn]
          simp only [Res.ok.injEq, Prod.mk.injEq] at e
          obtain ⟨rfl, rfl⟩ := e
          refine ⟨_, _, rfl, ?_, rfl, hl4.setL _ rfl, [], h4, fun _ => rfl⟩
          simp only [q4]
        · rw [if_neg hn] at e
          rw [if_neg hn]
          refine ih (lm := { lm4 with l := { lm4.l with name := name, cardIndex := 0 } }) (x := { x3 with mem := m4 })
            hr (hl4.setL _ rfl) h4 ?_
          simp only [q4]
          exact e
      · rw [if_neg hk] at e
        rw [if_neg hk]
        obtain ⟨⟨l2, s2⟩, e2, e⟩ := bind_ok_inv e
        obtain ⟨lm3, x3, e3, t3⟩ := cardStepM_ok hcb hinc
          (lm := { lm1 with l := { lm1.l with lineCount := lm1.l.lineCount + 1 } }) (x := { x with mem := m1 })
          hr hl2 h1 e2
        obtain ⟨t1, t2, t4, leak, t5, t6⟩ := t3
        subst t1
        subst t2
        simp only [e3, Res.bind_ok]
        obtain ⟨lm4, x4, e4, u⟩ := ih (L := leak ++ L) (by simp [hr]) t4 t5 e
        obtain ⟨u1, u2, u3, leak2, u4, u5⟩ := u
        refine ⟨lm4, x4, e4, u1, u2, u3, leak2 ++ leak, by rwa [List.append_assoc], fun hn => ?_⟩
        rw [u5 hn, t6 hn]
        rfl

theorem finishM_ok (hcb : CallbackOk cb owned Rep) {n0 k0 : Nat} {lm : Loc} {x : Sh C}
    {L : List Nat} (hl : LocOk n0 k0 lm x.s) (h : ShOk owned Rep x (locBlks lm ++ L)) :
    ∃ lm' x', finishM cb lm x = .ok (lm', x') ∧ x'.s = finish lm.l x.s ∧ MsgOk n0 k0 lm' x'.s ∧
      ShOk owned Rep x' (locBlks lm' ++ L) ∧ (lm.l.pending = none → lm'.pend = none) := by
  unfold finishM finish
  by_cases hc : lm.l.cardIndex = 0 ∧ lm.l.name ≠ bs "END"
  · rw [if_pos hc, if_pos hc]
    have h1 : ShOk owned Rep { x with mem := (nameBlk x.mem lm.l.name).1 }
        ((nameBlk x.mem lm.l.name).2.toList ++ (lm.pend.toList ++ (restBlks lm ++ L))) :=
      h.mem' ((nameBlk_ok h.own lm.l.name).perm (by rw [locBlks_eq]; perms))
    obtain ⟨x1, e1, s1, h2⟩ := call_ok hcb h1 ⟨lm.l.name, lm.l.pending.map pendingText, none⟩
      (name := (nameBlk x.mem lm.l.name).2) (card := lm.pend) (fun a ha => by simp [ha])
      (fun a ha => by simp only [List.mem_append]; exact .inr (.inl ha))
    obtain ⟨m3, e3, h3⟩ := h2.freeOpt
    obtain ⟨m4, e4, h4⟩ := h3.freeOpt
    have e4' : m3.freeOpt lm.pend = .ok m4 := e4
    simp only [e1, Res.bind_ok, e3, e4']
    refine ⟨_, _, rfl, s1, ?_, ?_, fun _ => rfl⟩
    · simp only [s1]
      exact ⟨hl.errLe, hl.err, hl.warnLe, hl.warn⟩
    · rw [locBlks_eq]
      exact h4
  · rw [if_neg hc, if_neg hc]
    refine ⟨lm, x, rfl, rfl, hl.msg, h, fun hp => ?_⟩
    have := hl.pend
    rw [hp] at this
    simpa using this

end

/-- Auxiliary: lines that do not end with `+` leave nothing in the builder. -/
theorem cardStep_pending {w : World} {cfg : Config} {root : Bytes} {inc : Bytes → Shared → Res Shared} {file : Bytes}
    {l l' : Local} {s s' : Shared} {cells : Bytes} (hp : l.pending = none) (hc : cells.getLast? ≠ some charPlus)
    (e : cardStep w cfg root inc file l s cells = .ok (l', s')) : l'.pending = none := by
  have hrep : ∀ {text : Bytes}, report l s text = (l', s') → l'.pending = none := by
    intro text h
    rw [report_eq] at h
    simp only [Prod.mk.injEq] at h
    rw [← h.1]
  have hmulti : multiReport l s cells = .ok (l', s') → l'.pending = none := by
    intro h
    unfold multiReport at h
    obtain ⟨mm, e0, h⟩ := bind_ok_inv h
    rw [hp] at e0
    cases mm with
    | more t => exact absurd (multiLine_more e0) hc
    | done t =>
      simp only [Res.ok.injEq] at h
      rw [report_eq] at h
      simp only [Prod.mk.injEq] at h
      rw [← h.1]
  have hpath : ∀ {kind : Bytes} {full : Bytes → Res Bytes}, includePath w kind full file l s cells = .ok (l', s') →
      l'.pending = none := by
    intro kind full h
    unfold includePath at h
    obtain ⟨mm, e0, h⟩ := bind_ok_inv h
    rw [hp] at e0
    cases mm with
    | more t => exact absurd (multiLine_more e0) hc
    | done t =>
      simp only at h
      obtain ⟨path, e1, h⟩ := bind_ok_inv h
      split at h
      · simp only [Res.ok.injEq, Prod.mk.injEq] at h
        rw [← h.1]
      · obtain ⟨s1, e2, h⟩ := bind_ok_inv h
        simp only [Res.ok.injEq, Prod.mk.injEq] at h
        rw [← h.1]
  have hsup : ∀ {kind : Bytes} {b : Bool}, superfluous kind b file l s = .ok (l', s') → l'.pending = none := by
    intro kind b h
    unfold superfluous at h
    cases b with
    | true =>
      simp only [if_true] at h
      obtain ⟨s1, e2, h⟩ := bind_ok_inv h
      simp only [Res.ok.injEq, Prod.mk.injEq] at h
      rw [← h.1]
      exact hp
    | false =>
      simp only [Bool.false_eq_true, if_false, Res.bind_ok, Res.ok.injEq, Prod.mk.injEq] at h
      rw [← h.1]
      exact hp
  unfold cardStep at e
  split at e
  · split at e
    · unfold includeCard at e
      split at e
      · obtain ⟨mm, e0, h⟩ := bind_ok_inv e
        rw [hp] at e0
        cases mm with
        | more t => exact absurd (multiLine_more e0) hc
        | done t =>
          simp only at h
          obtain ⟨s1, e2, h⟩ := bind_ok_inv h
          simp only [Res.ok.injEq, Prod.mk.injEq] at h
          rw [← h.1]
      · split at e
        · exact hpath e
        · split at e
          · exact hpath e
          · split at e
            · exact hsup e
            · split at e
              · exact hsup e
              · split at e
                · exact hrep (Res.ok.inj e)
                · split at e
                  · exact hmulti e
                  · exact hrep (Res.ok.inj e)
    · unfold includeCardOff at e
      split at e
      · exact hrep (Res.ok.inj e)
      · split at e
        · exact hmulti e
        · exact hrep (Res.ok.inj e)
  · exact hrep (Res.ok.inj e)

theorem lineCells_getLast {line : Line} (h : (lineCells line).getLast? = some charPlus) :
    line.text.getLast? = some charPlus := by
  unfold lineCells at h
  split at h
  · rw [List.getLast?_eq_getElem?] at h ⊢
    rw [List.length_set, List.getElem?_set] at h
    split at h
    · split at h
      · cases h
      · cases h
    · exact h
  · exact h

theorem linesLoop_pending {w : World} {cfg : Config} {root : Bytes} {inc : Bytes → Shared → Res Shared} {file : Bytes}
    (lines : List Line) : ∀ {l l' : Local} {s s' : Shared}, (∀ line ∈ lines, line.text.getLast? ≠ some charPlus) →
      l.pending = none → linesLoop w cfg root inc file lines l s = .ok (l', s') → l'.pending = none := by
  induction lines with
  | nil =>
    intro l l' s s' _ hp e
    simp only [linesLoop, Res.ok.injEq, Prod.mk.injEq] at e
    rw [← e.1]
    exact hp
  | cons line lines ih =>
    intro l l' s s' ht hp e
    simp only [linesLoop] at e
    have ht' : ∀ x ∈ lines, x.text.getLast? ≠ some charPlus := fun x hx => ht x (by simp [hx])
    split at e
    · refine ih ht' ?_ e; exact hp
    · split at e
      · obtain ⟨name, e2, e⟩ := bind_ok_inv e
        split at e
        · simp only [Res.ok.injEq, Prod.mk.injEq] at e
          rw [← e.1]
          exact hp
        · refine ih ht' ?_ e; exact hp
      · obtain ⟨⟨l2, s2⟩, e2, e⟩ := bind_ok_inv e
        refine ih ht' ?_ e
        refine cardStep_pending ?_ (fun hx => ht line (by simp) (lineCells_getLast hx)) e2
        exact hp

section
variable {C : Type} {cb : Callback C} {owned : C → List Nat} {Rep : C → List KeyEvent → Prop}

theorem parseFileM_ok (hcb : CallbackOk cb owned Rep) (w : World) (cfg : Config) (root : Bytes) (rootBlk : Nat)
    (depth : Nat) : IncMOk owned Rep w rootBlk (parseFile w cfg root depth) (parseFileM w cfg root rootBlk cb depth) := by
  induction depth with
  | zero => intro f x s' L e _ _; simp [parseFile] at e
  | succ depth ih =>
    intro f x s' L e h hr
    simp only [parseFile] at e
    simp only [parseFileM]
    cases hc : w.content f with
    | none =>
      rw [hc] at e
      simp only at e ⊢
      obtain ⟨b, x2, e2, s2, l2, h2⟩ := errorM_ok (n0 := x.s.errors.length) (k0 := x.s.warnings.length) (lm := {})
        (x := x) (L := L) ⟨Nat.le_refl _, by simp, Nat.le_refl _, by simp⟩ h e
      have hs := error_inv e
      simp only [e2, Res.bind_ok]
      refine ⟨x2, some b, none, [], rfl, s2, ?_, ?_, ?_, ?_, h2, fun _ => rfl⟩
      · rw [hs]; simp
      · rw [hs]; simp
      · rw [hs]; simp
      · rw [hs]; simp
    | some content =>
      rw [hc] at e
      simp only at e ⊢
      obtain ⟨lines, e1, e⟩ := bind_ok_inv e
      obtain ⟨⟨l2, s2⟩, e2, e⟩ := bind_ok_inv e
      simp only [Res.ok.injEq] at e
      have h1 := alloc_ok (alloc_ok h.own)
      simp only [e1, Res.bind_ok]
      generalize hf : x.mem.alloc = f1 at h1
      generalize hb : f1.1.alloc = b1 at h1
      have hl0 : LocOk x.s.errors.length x.s.warnings.length {} x.s :=
        ⟨rfl, Nat.le_refl _, by simp, Nat.le_refl _, by simp⟩
      obtain ⟨lm3, x3, e3, t3⟩ := linesLoopM_ok hcb ih lines (lm := {}) (x := { x with mem := b1.1 })
        (L := b1.2 :: f1.2 :: L) (by simp [hr]) hl0
        (h.mem' (h1.perm (by simp only [locBlks]; perms))) e2
      obtain ⟨t1, t2, t4, leak, t5, t6⟩ := t3
      subst t1
      subst t2
      obtain ⟨lm4, x4, e4, s4, l4, h4, p4⟩ := finishM_ok hcb t4 t5
      simp only [e3, Res.bind_ok, e4]
      obtain ⟨m5, e5, h5⟩ := freeOpt_ok (m := x4.mem) (p := lm4.lineExtra)
        (L := lm4.nameExtra.toList ++ (b1.2 :: f1.2 :: (lm4.err.toList ++ (lm4.warn.toList ++
          (lm4.pend.toList ++ leak ++ L)) ++ x4.arr :: x4.blks ++ owned x4.user)))
        (h4.own.perm (by simp only [locBlks]; perms))
      obtain ⟨m6, e6, h6⟩ := freeOpt_ok h5
      obtain ⟨m7, e7, h7⟩ := free_ok h6
      obtain ⟨m8, e8, h8⟩ := free_ok h7
      simp only [e5, Res.bind_ok, e6, e7, e8]
      rw [s4] at l4
      rw [e] at s4 l4
      refine ⟨{ x4 with mem := m8 }, lm4.err, lm4.warn, lm4.pend.toList ++ leak, rfl, s4, l4.errLe, l4.err,
        l4.warnLe, l4.warn, ⟨h4.len, h4.rep, h8.perm (by perms)⟩, fun hn => ?_⟩
      have hp := linesLoop_pending lines (hn f content lines hc e1) rfl e2
      rw [p4 hp, t6 hn]
      rfl

theorem allocAll_ok : ∀ (n : Nat) {m : Mem} {L : List Nat}, Owns m L →
    Owns (allocAll m n).1 ((allocAll m n).2 ++ L) ∧ (allocAll m n).2.length = n
  | 0, _, _, h => ⟨h, rfl⟩
  | n + 1, m, L, h => by
    have := allocAll_ok n (alloc_ok h)
    refine ⟨?_, by simp [allocAll, this.2]⟩
    exact this.1.perm (by simp only [allocAll]; perms)

theorem giveString_ok {want : Bool} {m : Mem} {b : Option Nat} {L : List Nat} (h : Owns m (b.toList ++ L)) :
    ∃ m' q, giveString want m b = .ok (m', q) ∧ Owns m' (q.toList ++ L) ∧ q.isSome = (want && b.isSome) := by
  unfold giveString
  cases want with
  | true => exact ⟨m, b, rfl, h, by simp⟩
  | false =>
    obtain ⟨m1, e1, h1⟩ := freeOpt_ok h
    simp only [Bool.false_eq_true, if_false, e1, Res.bind_ok]
    exact ⟨m1, none, rfl, h1, rfl⟩

theorem rootM_ok {file : Bytes} {m : Mem} {L : List Nat} (h : Owns m L) :
    ∃ m' b, rootM file m = .ok (m', b) ∧ Owns m' (b :: L) := by
  unfold rootM
  split
  · exact ⟨_, _, rfl, alloc_ok h⟩
  · split
    · exact ⟨_, _, rfl, alloc_ok h⟩
    · have h1 := alloc_ok (alloc_ok h)
      dsimp only
      generalize m.alloc = c at h1 ⊢
      generalize c.1.alloc = r at h1 ⊢
      obtain ⟨m2, e2, h2⟩ := free_ok (m := r.1) (b := c.2) (L := r.2 :: L) (h1.perm (by perms))
      simp only [e2, Res.bind_ok]
      exact ⟨_, _, rfl, h2⟩

/-- C86: a parse with a callback never reads from released memory and releases nothing twice; the calls, errors and
warnings are those of the parse without memory. Afterwards exactly the following is allocated: what was allocated
before, what the callback owns, and the error and warning strings, which are given to the user if he wants them.
What is missing: `leak`, which is empty if no line ends with `+`, but not always (`c86_leak`). -/
theorem c86_parse_partial (hcb : CallbackOk cb owned Rep) (w : World) (cfg : Config) (depth : Nat) (file : Bytes)
    (wantErr wantWarn : Bool) (m : Mem) (user : C) (base : List Nat) (hm : Owns m (owned user ++ base))
    (hu : Rep user []) (s : Shared) (e : parseTop w cfg depth file = .ok s) :
    ∃ o leak, parseTopM w cfg cb depth file wantErr wantWarn m user = .ok o ∧ o.s = s ∧ Rep o.user s.events ∧
      Owns o.mem (o.err.toList ++ o.warn.toList ++ owned o.user ++ leak ++ base) ∧
      o.err.isSome = (wantErr && decide (s.errors ≠ [])) ∧ o.warn.isSome = (wantWarn && decide (s.warnings ≠ [])) ∧
      (NoContinued w → leak = []) := by
  unfold parseTop at e
  unfold parseTopM
  cases hc : w.content file with
  | none =>
    rw [hc] at e
    simp only [Res.ok.injEq] at e ⊢
    subst e
    cases wantErr with
    | true =>
      obtain ⟨m1, b, e1, h1⟩ := push_ok (p := none) (L := owned user ++ base) hm
      simp only [if_true, e1, Res.bind_ok]
      exact ⟨_, [], rfl, rfl, hu, h1.perm (by perms), by simp, by simp, fun _ => rfl⟩
    | false =>
      simp only [Bool.false_eq_true, if_false]
      exact ⟨_, [], rfl, rfl, hu, hm.perm (by perms), by simp, by simp, fun _ => rfl⟩
  | some content =>
    rw [hc] at e
    simp only at e ⊢
    obtain ⟨root, e0, e⟩ := bind_ok_inv e
    have h1 := alloc_ok hm
    generalize m.alloc = r1 at h1 ⊢
    obtain ⟨m2, rb, e2, h2⟩ := rootM_ok (file := file) h1
    simp only [e2, Res.bind_ok, e0]
    have h3 := alloc_ok h2
    generalize m2.alloc = a3 at h3 ⊢
    have h4 := alloc_ok h3
    generalize a3.1.alloc = p4 at h4 ⊢
    obtain ⟨m5, arr, e5, h5⟩ := realloc_ok (m := p4.1) (p := some a3.2)
      (L := p4.2 :: rb :: r1.2 :: (owned user ++ base)) (h4.perm (by perms))
    simp only [e5, Res.bind_ok]
    obtain ⟨h6, n6⟩ := allocAll_ok cfg.extraPaths.length h5
    generalize allocAll m5 cfg.extraPaths.length = ex at h6 n6 ⊢
    have hsh : ShOk owned Rep ⟨{ paths := w.cwd :: cfg.extraPaths }, arr, p4.2 :: ex.2, ex.1, user⟩
        (rb :: r1.2 :: base) := ⟨by simp [n6], hu, h6.perm (by perms)⟩
    obtain ⟨x7, ee, vv, leak, e7, s7, le1, is1, le2, is2, h7, hk⟩ :=
      parseFileM_ok hcb w cfg root rb depth file _ s _ e hsh (by simp)
    simp only [e7, Res.bind_ok]
    obtain ⟨m8, e8, h8⟩ := freeAll_ok (l := x7.blks) (m := x7.mem)
      (L := x7.arr :: rb :: r1.2 :: (ee.toList ++ (vv.toList ++ owned x7.user ++ leak ++ base)))
      (h7.own.perm (by perms))
    obtain ⟨m9, e9, h9⟩ := free_ok h8
    obtain ⟨m10, e10, h10⟩ := free_ok h9
    obtain ⟨m11, e11, h11⟩ := free_ok h10
    obtain ⟨m12, q12, e12, h12, i12⟩ := giveString_ok (want := wantErr) h11
    obtain ⟨m13, q13, e13, h13, i13⟩ := giveString_ok (want := wantWarn) (m := m12) (b := vv)
      (L := q12.toList ++ owned x7.user ++ leak ++ base) (h12.perm (by perms))
    simp only [e8, Res.bind_ok, e9, e10, e11, e12, e13]
    refine ⟨_, leak, rfl, s7, ?_, h13.perm (by perms), ?_, ?_, hk⟩
    · simp only; rw [← s7]; exact h7.rep
    · simp only [i12, is1]
      congr 1
      exact decide_eq_decide.2 (by simp [List.length_pos_iff])
    · simp only [i13, is2]
      congr 1
      exact decide_eq_decide.2 (by simp [List.length_pos_iff])

end

/-! ## The list of keywords -/

/-- Specification: the blocks of a keyword. -/
def KwBlk.blks (k : KwBlk) : List Nat := k.name :: k.strs ++ k.cards.toList

/-- Specification: the blocks of a list of keywords. -/
def kwBlks (arr : Option Nat) (kws : List KwBlk) : List Nat := arr.toList ++ kws.flatMap KwBlk.blks

/-- Auxiliary: the blocks of the user data of `key_file_parse`. -/
def kwOwned (c : KwSt × Bool) : List Nat := kwBlks c.1.arr c.1.kws

/-- Specification: the blocks are laid out as the keywords say: every card has its string, where there is a
card there is an array of cards, and there is an array of keywords if and only if there are keywords. -/
def Layout (arr : Option Nat) (ks : List Keyword) (kws : List KwBlk) : Prop :=
  (arr.isSome ↔ ks ≠ []) ∧ ∀ (i : Nat) kw b, ks[i]? = some kw → kws[i]? = some b →
    b.strs.length = kw.cards.length ∧ (kw.cards ≠ [] → b.cards.isSome)

/-- Auxiliary: the user data of `key_file_parse` after some calls. -/
def KwRep (c : KwSt × Bool) (evs : List KeyEvent) : Prop :=
  c.1.kws.length = c.1.st.keywords.length ∧ Layout c.1.arr c.1.st.keywords c.1.kws ∧
  ((c.2 = false ∧ runCallbacks {} evs = .ok c.1.st) ∨ (c.2 = true ∧ ∀ st, runCallbacks {} evs ≠ .ok st))

theorem runCallbacks_snoc (st : KeyState) (evs : List KeyEvent) (ev : KeyEvent) :
    runCallbacks st (evs ++ [ev]) = (do let s ← runCallbacks st evs; parseCallback s ev) := by
  induction evs generalizing st with
  | nil =>
    simp only [List.nil_append, runCallbacks, Res.bind_ok]
    cases parseCallback st ev <;> rfl
  | cons e evs ih =>
    simp only [List.cons_append, runCallbacks]
    cases h : parseCallback st e with
    | ok s => simp only [Res.bind_ok]; exact ih s
    | err => rfl
    | ub => rfl
    | abort => rfl

theorem take_drop_perm {α : Type} (f : α → List Nat) (l : List α) (i : Nat) (x : α) :
    ((l.take i ++ x :: l.drop i).flatMap f).Perm (f x ++ l.flatMap f) := by
  have h : l.flatMap f = (l.take i).flatMap f ++ (l.drop i).flatMap f := by
    rw [← List.flatMap_append, List.take_append_drop]
  rw [h, List.flatMap_append, List.flatMap_cons]
  perms

theorem set_perm (l : List KwBlk) (i : Nat) (x y : KwBlk) (h : l[i]? = some x) :
    (y.blks ++ l.flatMap KwBlk.blks).Perm (x.blks ++ (l.set i y).flatMap KwBlk.blks) := by
  obtain ⟨hi, hx⟩ := List.getElem?_eq_some_iff.1 h
  have h1 : l.flatMap KwBlk.blks = (l.take i).flatMap KwBlk.blks ++ (x.blks ++ (l.drop (i + 1)).flatMap KwBlk.blks) := by
    rw [← List.flatMap_cons, ← List.flatMap_append, ← hx, ← List.drop_eq_getElem_cons hi, List.take_append_drop]
  have h2 : (l.set i y).flatMap KwBlk.blks =
      (l.take i).flatMap KwBlk.blks ++ (y.blks ++ (l.drop (i + 1)).flatMap KwBlk.blks) := by
    rw [← List.flatMap_cons, ← List.flatMap_append, List.set_eq_take_append_cons_drop, if_pos hi]
  rw [h1, h2]
  perms

theorem newKeywordM_ok {m : Mem} {k : KwSt} {L : List Nat} (hlen : k.kws.length = k.st.keywords.length)
    (h : Owns m (kwBlks k.arr k.kws ++ L)) (name : Bytes) :
    (∃ m' k', newKeywordM m k name = .ok (m', k') ∧ newKeyword k.st name = .ok k'.st ∧
      k'.kws.length = k'.st.keywords.length ∧ Owns m' (kwBlks k'.arr k'.kws ++ L)) ∨
    ((∀ r, newKeywordM m k name ≠ .ok r) ∧ ∀ st, newKeyword k.st name ≠ .ok st) := by
  unfold newKeywordM newKeyword
  cases hi : insertPos (k.st.keywords.map Keyword.name) name with
  | ok i =>
    left
    obtain ⟨m1, a1, e1, h1⟩ := realloc_ok (m := m) (p := k.arr) (L := k.kws.flatMap KwBlk.blks ++ L)
      (h.perm (by simp only [kwBlks]; perms))
    simp only [Res.bind_ok, e1]
    refine ⟨_, _, rfl, rfl, ?_, ?_⟩
    · simp only [List.length_append, List.length_take, List.length_cons, List.length_drop, hlen]
    · have h2 := alloc_ok h1
      refine h2.perm ?_
      unfold kwBlks
      simp only
      have h3 := take_drop_perm KwBlk.blks k.kws i ⟨m1.alloc.2, none, []⟩
      refine List.Perm.trans ?_ (List.Perm.append_right L (List.Perm.append_left _ h3.symm))
      simp only [KwBlk.blks]
      perms
  | err => exact .inr ⟨(by intro r hr; cases hr), (by intro r hr; cases hr)⟩
  | ub => exact .inr ⟨(by intro r hr; cases hr), (by intro r hr; cases hr)⟩
  | abort => exact .inr ⟨(by intro r hr; cases hr), (by intro r hr; cases hr)⟩

theorem addCardM_ok {m : Mem} {k : KwSt} {L : List Nat} (hlen : k.kws.length = k.st.keywords.length)
    (h : Owns m (kwBlks k.arr k.kws ++ L)) (card : Bytes) :
    (∃ m' k', addCardM m k card = .ok (m', k') ∧ addCard k.st card = .ok k'.st ∧
      k'.kws.length = k'.st.keywords.length ∧ Owns m' (kwBlks k'.arr k'.kws ++ L)) ∨
    ((∀ r, addCardM m k card ≠ .ok r) ∧ ∀ st, addCard k.st card ≠ .ok st) := by
  unfold addCardM addCard
  cases hc : k.st.cur with
  | none => exact .inr ⟨(by intro r hr; cases hr), (by intro r hr; cases hr)⟩
  | some i =>
    simp only
    cases hk : k.st.keywords[i]? with
    | none => exact .inr ⟨(by intro r hr; cases hr), (by intro r hr; cases hr)⟩
    | some kw =>
      have hi : i < k.kws.length := by rw [hlen]; exact (List.getElem?_eq_some_iff.1 hk).1
      have hb : k.kws[i]? = some k.kws[i] := List.getElem?_eq_getElem hi
      rw [hb]
      left
      have h0 := set_perm k.kws i k.kws[i] ⟨k.kws[i].name, none, k.kws[i].strs⟩ hb
      obtain ⟨m1, a1, e1, h1⟩ := realloc_ok (m := m) (p := k.kws[i].cards)
        (L := k.arr.toList ++ (k.kws.set i ⟨k.kws[i].name, none, k.kws[i].strs⟩).flatMap KwBlk.blks ++ L)
        (h.perm (by
          have h5 := List.perm_iff_count.1 h0
          refine List.perm_iff_count.2 (fun a => ?_)
          have h6 := h5 a
          simp only [kwBlks, KwBlk.blks, List.cons_append, List.append_assoc, Option.toList_none,
            List.append_nil, List.count_append, count_cons1] at h6 ⊢
          omega))
      simp only [e1, Res.bind_ok]
      refine ⟨_, _, rfl, by simp only [hc], ?_, ?_⟩
      · simp only [List.length_set, hlen]
      · have h2 := alloc_ok h1
        refine h2.perm ?_
        have h7 := set_perm k.kws i k.kws[i] ⟨k.kws[i].name, some a1, k.kws[i].strs ++ [m1.alloc.2]⟩ hb
        have h5 := List.perm_iff_count.1 h0
        have h8 := List.perm_iff_count.1 h7
        refine List.perm_iff_count.2 (fun a => ?_)
        have h6 := h5 a
        have h9 := h8 a
        simp only [kwBlks, KwBlk.blks, List.cons_append, List.append_assoc, List.nil_append, Option.toList_none,
          Option.toList_some, List.append_nil, List.count_append, count_cons1] at h6 h9 ⊢
        omega

/-- Auxiliary: the first part of `parseCallback`. -/
def firstPart (st : KeyState) (ev : KeyEvent) : Res KeyState :=
  if st.cur = none ∨ ev.index = some 0 ∨ ev.index = none then newKeyword st ev.name else .ok st

/-- Auxiliary: the second part of `parseCallback`. -/
def secondPart (card : Option Bytes) (st : KeyState) : Res KeyState :=
  match card with
  | none => .ok st
  | some c => addCard st c

theorem parseCallback_eq (st : KeyState) (ev : KeyEvent) :
    parseCallback st ev = (do let s ← firstPart st ev; secondPart ev.card s) := by
  unfold parseCallback firstPart secondPart
  by_cases hc : st.cur = none ∨ ev.index = some 0 ∨ ev.index = none
  · simp only [if_pos hc]
    cases ev.card <;> rfl
  · simp only [if_neg hc]
    cases ev.card <;> rfl

theorem callbackM_ok {m : Mem} {k : KwSt} {L : List Nat} (hlen : k.kws.length = k.st.keywords.length)
    (h : Owns m (kwBlks k.arr k.kws ++ L)) (ev : KeyEvent) :
    (∃ m' k', callbackM m k ev = .ok (m', k') ∧ parseCallback k.st ev = .ok k'.st ∧
      k'.kws.length = k'.st.keywords.length ∧ Owns m' (kwBlks k'.arr k'.kws ++ L)) ∨
    ((∀ r, callbackM m k ev ≠ .ok r) ∧ ∀ st, parseCallback k.st ev ≠ .ok st) := by
  have hfirst : (∃ m' k', keywordFor m k ev = .ok (m', k') ∧ firstPart k.st ev = .ok k'.st ∧
      k'.kws.length = k'.st.keywords.length ∧ Owns m' (kwBlks k'.arr k'.kws ++ L)) ∨
    ((∀ r, keywordFor m k ev ≠ .ok r) ∧ ∀ st, firstPart k.st ev ≠ .ok st) := by
    unfold keywordFor firstPart
    by_cases hc : k.st.cur = none ∨ ev.index = some 0 ∨ ev.index = none
    · rw [if_pos hc, if_pos hc]
      exact newKeywordM_ok hlen h ev.name
    · rw [if_neg hc, if_neg hc]
      exact .inl ⟨m, k, rfl, rfl, hlen, h⟩
  rw [parseCallback_eq]
  unfold callbackM
  rcases hfirst with ⟨m1, k1, e1, e2, h1, h2⟩ | ⟨n1, n2⟩
  · rw [e1, e2]
    simp only [Res.bind_ok]
    cases hcard : ev.card with
    | none => exact .inl ⟨m1, k1, rfl, rfl, h1, h2⟩
    | some c => exact addCardM_ok h1 h2 c
  · right
    constructor
    · intro r hr
      obtain ⟨x, hx, _⟩ := bind_ok_inv hr
      exact n1 x hx
    · intro st hr
      obtain ⟨x, hx, _⟩ := bind_ok_inv hr
      exact n2 x hx

theorem insert_get {α : Type} (l : List α) (i j : Nat) (x y : α) (hi : i ≤ l.length)
    (h : (l.take i ++ x :: l.drop i)[j]? = some y) :
    (j = i ∧ y = x) ∨ (j < i ∧ l[j]? = some y) ∨ (i < j ∧ l[j - 1]? = some y) := by
  rw [List.getElem?_append, List.length_take, Nat.min_eq_left hi] at h
  by_cases hj : j < i
  · rw [if_pos hj, List.getElem?_take, if_pos hj] at h
    exact .inr (.inl ⟨hj, h⟩)
  · rw [if_neg hj] at h
    by_cases e : j = i
    · subst e
      simp at h
      exact .inl ⟨rfl, h.symm⟩
    · right; right
      refine ⟨by omega, ?_⟩
      rw [show j - i = (j - i - 1) + 1 by omega, List.getElem?_cons_succ, List.getElem?_drop] at h
      rw [← h]
      congr 1
      omega

theorem newKeywordM_layout {m m' : Mem} {k k' : KwSt} {name : Bytes} (hlen : k.kws.length = k.st.keywords.length)
    (h : newKeywordM m k name = .ok (m', k')) (hl : Layout k.arr k.st.keywords k.kws) :
    Layout k'.arr k'.st.keywords k'.kws := by
  unfold newKeywordM at h
  obtain ⟨i, hi, h⟩ := bind_ok_inv h
  obtain ⟨a, ha, h⟩ := bind_ok_inv h
  simp only [Res.ok.injEq, Prod.mk.injEq] at h
  obtain ⟨-, rfl⟩ := h
  refine ⟨⟨fun _ => by simp, fun _ => rfl⟩, fun j kw b h1 h2 => ?_⟩
  simp only at h1 h2
  by_cases hi : i ≤ k.kws.length
  · rcases insert_get _ _ _ _ _ (hlen ▸ hi) h1 with ⟨e, rfl⟩ | ⟨e, g1⟩ | ⟨e, g1⟩ <;>
      rcases insert_get _ _ _ _ _ hi h2 with ⟨e', rfl⟩ | ⟨e', g2⟩ | ⟨e', g2⟩ <;> try omega
    · exact ⟨rfl, fun h => absurd rfl h⟩
    · exact hl.2 _ _ _ g1 g2
    · exact hl.2 _ _ _ g1 g2
  · rw [List.take_of_length_le (by omega), List.drop_eq_nil_of_le (by omega)] at h1 h2
    by_cases hj : j < k.kws.length
    · rw [List.getElem?_append_left (by omega)] at h1 h2
      exact hl.2 _ _ _ h1 h2
    · rw [List.getElem?_append_right (by omega)] at h1 h2
      rw [hlen] at h2
      rcases hz : j - k.st.keywords.length with _ | n
      · rw [hz] at h1 h2
        simp at h1 h2
        subst h1 h2
        exact ⟨rfl, fun h => absurd rfl h⟩
      · rw [hz] at h1
        simp at h1

theorem addCardM_layout {m m' : Mem} {k k' : KwSt} {card : Bytes} (h : addCardM m k card = .ok (m', k'))
    (hl : Layout k.arr k.st.keywords k.kws) : Layout k'.arr k'.st.keywords k'.kws := by
  unfold addCardM at h
  split at h
  · cases h
  · rename_i i hc
    split at h
    · rename_i kw b hk hb
      obtain ⟨a, ha, h⟩ := bind_ok_inv h
      simp only [Res.ok.injEq, Prod.mk.injEq] at h
      obtain ⟨-, rfl⟩ := h
      refine ⟨hl.1.trans (by simp), fun j kw' b' h1 h2 => ?_⟩
      simp only [List.getElem?_set] at h1 h2
      by_cases e : i = j
      · subst e
        rw [if_pos rfl] at h1 h2
        split at h1 <;> split at h2 <;> simp at h1 h2
        subst h1 h2
        have := hl.2 _ _ _ hk hb
        simp [this.1]
      · rw [if_neg e] at h1 h2
        exact hl.2 _ _ _ h1 h2
    · cases h

theorem callbackM_layout {m m' : Mem} {k k' : KwSt} {ev : KeyEvent} (hlen : k.kws.length = k.st.keywords.length)
    (h : callbackM m k ev = .ok (m', k')) (hl : Layout k.arr k.st.keywords k.kws) :
    Layout k'.arr k'.st.keywords k'.kws := by
  unfold callbackM at h
  obtain ⟨⟨m1, k1⟩, h1, h⟩ := bind_ok_inv h
  have hl1 : Layout k1.arr k1.st.keywords k1.kws := by
    unfold keywordFor at h1
    split at h1
    · exact newKeywordM_layout hlen h1 hl
    · simp only [Res.ok.injEq, Prod.mk.injEq] at h1
      obtain ⟨-, rfl⟩ := h1
      exact hl
  split at h
  · simp only [Res.ok.injEq, Prod.mk.injEq] at h
    obtain ⟨-, rfl⟩ := h
    exact hl1
  · exact addCardM_layout h hl1

theorem kwCallback_ok : CallbackOk kwCallback kwOwned KwRep := by
  intro m c evs ev L hr h
  obtain ⟨k, bad⟩ := c
  obtain ⟨hlen, hlay, hr⟩ := hr
  simp only at hlay
  simp only at hlen hr
  unfold kwCallback
  cases bad with
  | true =>
    simp only [if_true]
    refine ⟨m, (k, true), rfl, ⟨hlen, hlay, .inr ⟨rfl, fun st hst => ?_⟩⟩, h⟩
    rcases hr with ⟨h1, _⟩ | ⟨_, h2⟩
    · cases h1
    · rw [runCallbacks_snoc] at hst
      obtain ⟨x, hx, _⟩ := bind_ok_inv hst
      exact h2 x hx
  | false =>
    have hrun : runCallbacks {} evs = .ok k.st := by
      rcases hr with ⟨_, h1⟩ | ⟨h1, _⟩
      · exact h1
      · cases h1
    simp only [Bool.false_eq_true, if_false]
    rcases callbackM_ok hlen h ev with ⟨m1, k1, e1, e2, h1, h2⟩ | ⟨n1, n2⟩
    · rw [e1]
      refine ⟨m1, (k1, false), rfl, ⟨h1, callbackM_layout hlen e1 hlay, .inl ⟨rfl, ?_⟩⟩, h2⟩
      rw [runCallbacks_snoc, hrun]
      exact e2
    · refine ⟨m, (k, true), ?_, ⟨hlen, hlay, .inr ⟨rfl, fun st hst => ?_⟩⟩, h⟩
      · cases hx : callbackM m k ev with
        | ok r => exact absurd hx (n1 r)
        | err => rfl
        | ub => rfl
        | abort => rfl
      · rw [runCallbacks_snoc, hrun] at hst
        exact n2 st hst

theorem freeKws_ok : ∀ {kws : List KwBlk} {m : Mem} {L : List Nat}, Owns m (kws.flatMap KwBlk.blks ++ L) →
    ∃ m', freeKws m kws = .ok m' ∧ Owns m' L
  | [], m, _, h => ⟨m, rfl, h⟩
  | k :: kws, m, L, h => by
    obtain ⟨m1, e1, h1⟩ := free_ok (m := m) (b := k.name)
      (L := k.strs ++ (k.cards.toList ++ (kws.flatMap KwBlk.blks ++ L)))
      (h.perm (by simp only [List.flatMap_cons, KwBlk.blks]; perms))
    obtain ⟨m2, e2, h2⟩ := freeAll_ok h1
    obtain ⟨m3, e3, h3⟩ := freeOpt_ok h2
    obtain ⟨m4, e4, h4⟩ := freeKws_ok h3
    exact ⟨m4, by simp only [freeKws, e1, Res.bind_ok, e2, e3, e4], h4⟩

/-- C86: `key_file_free` releases all blocks of a list of keywords, each of them once. -/
theorem c86_free (m : Mem) (arr : Option Nat) (kws : List KwBlk) (base : List Nat)
    (h : Owns m (kwBlks arr kws ++ base)) : ∃ m', keyFileFree m arr kws = .ok m' ∧ Owns m' base := by
  obtain ⟨m1, e1, h1⟩ := freeKws_ok (m := m) (kws := kws) (L := arr.toList ++ base)
    (h.perm (by simp only [kwBlks]; perms))
  obtain ⟨m2, e2, h2⟩ := freeOpt_ok h1
  exact ⟨m2, by simp only [keyFileFree, e1, Res.bind_ok, e2], h2⟩

/-- C86: `key_file_parse` of a file whose parse gives the calls, errors and warnings `s` and whose calls give the
keywords `ks`. It makes no error in the use of memory. Without errors it returns the keywords, with errors it
returns none and the error string if the user wants it, and afterwards exactly the returned keywords (which
`key_file_free` releases, `c86_free`) and the returned strings are allocated besides what was allocated before.
What is missing: `leak` as in `c86_parse_partial`. -/
theorem c86_key_file_parse_partial (w : World) (cfg : Config) (depth : Nat) (file : Bytes)
    (wantErr wantWarn : Bool) (m : Mem) (base : List Nat) (hm : Owns m base) (s : Shared) (ks : List Keyword)
    (e1 : parseTop w cfg depth file = .ok s) (e2 : buildKeywords s.events = .ok ks) :
    ∃ p leak, keyFileParseM w cfg depth file wantErr wantWarn m = .ok p ∧
      p.keywords = (if s.errors = [] then ks else []) ∧ p.kws.length = p.keywords.length ∧
      Layout p.arr p.keywords p.kws ∧ p.err.isSome = (wantErr && decide (s.errors ≠ [])) ∧ p.warn.isSome = (wantWarn && decide (s.warnings ≠ [])) ∧
      Owns p.mem (kwBlks p.arr p.kws ++ p.err.toList ++ p.warn.toList ++ leak ++ base) ∧
      (NoContinued w → leak = []) := by
  obtain ⟨o, leak, a1, a2, a3, a4, a5, a6, a7⟩ := c86_parse_partial kwCallback_ok w cfg depth file true wantWarn m
    ({}, false) base hm ⟨rfl, ⟨by simp, fun i kw b h1 => by simp at h1⟩, .inl ⟨rfl, rfl⟩⟩ s e1
  unfold buildKeywords at e2
  obtain ⟨st, e3, e4⟩ := bind_ok_inv e2
  simp only [Res.ok.injEq] at e4
  obtain ⟨hlen, hlay, hr⟩ := a3
  have hr' : o.user.2 = false ∧ runCallbacks {} s.events = .ok o.user.1.st := by
    rcases hr with hr | hr
    · exact hr
    · exact absurd e3 (hr.2 st)
  rw [hr'.2] at e3
  simp only [Res.ok.injEq] at e3
  have b3 : o.user.1.st.keywords = ks := by rw [e3, e4]
  have b4 : o.user.1.kws.length = ks.length := by rw [hlen, e3, e4]
  have b5 : Owns o.mem (kwBlks o.user.1.arr o.user.1.kws ++ (o.err.toList ++ o.warn.toList ++ leak ++ base)) :=
    a4.perm (by simp only [kwOwned]; perms)
  unfold keyFileParseM keyFileEnd
  simp only [a1, Res.bind_ok, hr'.1, Bool.false_eq_true, if_false]
  by_cases hs : s.errors = []
  · have he : o.err = none := by
      rw [decide_eq_false (by simpa using hs)] at a5
      simpa using a5
    rw [he] at b5
    rw [he, if_pos hs]
    exact ⟨_, leak, rfl, b3, by simp only; rw [b3, b4], hlay, by simp [hs], a6, b5.perm (by perms), a7⟩
  · rw [decide_eq_true hs, Bool.and_true] at a5
    obtain ⟨b, hb⟩ := Option.isSome_iff_exists.1 a5
    rw [hb] at b5
    obtain ⟨m1, f1, f2⟩ := c86_free _ _ _ _ b5
    rw [hb, if_neg hs]
    simp only [f1, Res.bind_ok]
    cases wantErr with
    | true => exact ⟨_, leak, rfl, rfl, rfl, ⟨by simp, fun i kw b h1 => by simp at h1⟩, by simp [hs], a6, f2.perm (by simp only [kwBlks, List.flatMap_nil]; perms), a7⟩
    | false =>
      obtain ⟨m2, f3, f4⟩ := free_ok (m := m1) (b := b) (L := o.warn.toList ++ leak ++ base) (f2.perm (by perms))
      simp only [Bool.false_eq_true, if_false, f3, Res.bind_ok]
      exact ⟨_, leak, rfl, rfl, rfl, ⟨by simp, fun i kw b h1 => by simp at h1⟩, by simp, a6, f4.perm (by simp only [kwBlks, List.flatMap_nil]; perms), a7⟩

theorem noContinued_text {w : World}
    (hw : ∀ f content, w.content f = some content → content ≠ [] ∧ content.length < chunkSize ∧
      ∀ t ∈ textLines content, t.getLast? ≠ some charPlus) : NoContinued w := by
  intro f content lines hc hl line hline
  obtain ⟨h0, h1, h2⟩ := hw f content hc
  rw [c41_small h0 h1] at hl
  simp only [Res.ok.injEq] at hl
  subst hl
  obtain ⟨t, ht, rfl⟩ := List.mem_map.1 hline
  exact h2 t ht

/-- C86, in terms of the texts of the files: files that are not empty, smaller than 1 MiB and in which no line ends
with `+` leave nothing behind. -/
theorem c86_no_leak (w : World) (cfg : Config) (depth : Nat) (file : Bytes) (wantErr wantWarn : Bool) (m : Mem)
    (s : Shared) (ks : List Keyword)
    (hw : ∀ f content, w.content f = some content → content ≠ [] ∧ content.length < chunkSize ∧
      ∀ t ∈ textLines content, t.getLast? ≠ some charPlus)
    (e1 : parseTop w cfg depth file = .ok s) (e2 : buildKeywords s.events = .ok ks) (e3 : s.errors = []) :
    ∃ p m', keyFileParseM w cfg depth file wantErr wantWarn m = .ok p ∧ p.keywords = ks ∧ p.err = none ∧
      keyFileFree p.mem p.arr p.kws = .ok m' ∧ Owns m' (p.warn.toList ++ m.live) := by
  have hn : NoContinued w := noContinued_text hw
  obtain ⟨p, leak, a1, a2, _, _, a4, _, a6, a7⟩ := c86_key_file_parse_partial w cfg depth file wantErr wantWarn m m.live
    (List.Perm.refl _) s ks e1 e2
  have he : p.err = none := by
    rw [decide_eq_false (by simpa using e3)] at a4
    simpa using a4
  rw [a7 hn, he] at a6
  obtain ⟨m', b1, b2⟩ := c86_free p.mem p.arr p.kws (p.warn.toList ++ m.live) (a6.perm (by perms))
  exact ⟨p, m', a1, by rw [a2, if_pos e3], he, b1, b2⟩

/-- Not vacuous: the world of `c83_example`. -/
theorem c86_example :
    (∀ f content, infoWorld.content f = some content → content ≠ [] ∧ content.length < chunkSize ∧
      ∀ t ∈ textLines content, t.getLast? ≠ some charPlus) ∧
    (∃ s, parseTop infoWorld {} 3 (bs "/w/m.k") = .ok s ∧ s.errors = [] ∧
      buildKeywords s.events = .ok [⟨bs "A", []⟩, ⟨bs "B", []⟩, ⟨bs "NODE", [bs " 1", bs " 2"]⟩, ⟨bs "PART", [bs "t"]⟩]) ∧
    (match keyFileParseM infoWorld {} 3 (bs "/w/m.k") true true {} with
      | .ok p => decide (p.mem.live.length = 10) && (match keyFileFree p.mem p.arr p.kws with
        | .ok m => decide (m.live = [])
        | _ => false)
      | _ => false) = true := by
  refine ⟨?_, ⟨_, rfl, by decide +kernel, by decide +kernel⟩, by decide +kernel⟩
  intro f content hc
  have : content = bs "$ c\n*A\n*NODE\n 1\n$ c\n 2\n*INCLUDE\na.k\n*B\n" ∨ content = bs "*PART\n$ x\nt\n" := by
    unfold infoWorld at hc
    simp only at hc
    split at hc
    · exact .inl (by simpa using hc.symm)
    · split at hc
      · exact .inr (by simpa using hc.symm)
      · cases hc
  rcases this with rfl | rfl <;> decide +kernel

/-- The file system for the leak: the file ends in a continued line of an INCLUDE keyword that has a card already. -/
def leakWorld : World where
  content f := if f = bs "/w/m.k" then some (bs "*INCLUDE\na.k\nb.k +\n") else if f = bs "/w/a.k" then some (bs "*A\n") else none
  openError := bs "No such file or directory"
  isFile f := decide (f = bs "/w/m.k" ∨ f = bs "/w/a.k")
  isDir _ := false
  cwd := bs "/w"
  mem _ := 0

/-- C86 is violated: after `key_file_parse` of a file that ends in a continued line and after `key_file_free` of the
keywords a block is still allocated, which no pointer of the user leads to. -/
theorem c86_leak :
    (match keyFileParseM leakWorld {} 3 (bs "/w/m.k") true true {} with
      | .ok p => decide (p.keywords = [⟨bs "A", []⟩]) && decide (p.err = none) && decide (p.warn = none) &&
        (match keyFileFree p.mem p.arr p.kws with
          | .ok m => decide (m.live.length = 1)
          | _ => false)
      | _ => false) = true := by
  decide +kernel

end Dyna.KeyMem
