import Verif.KeyCallback
import Verif.Props.KeyOwn
/-!
# Property C95: parsing key files with a callback in C++
-/

namespace Dyna.KeyOwn

open Dyna Dyna.KeyMem
open Dyna.Key (World Config parseTop)

/-! ## Specification -/

/-- Specification: one call of the callback with values: the kept cards, the results, and whether it has thrown;
`none`: the callback is wrong. -/
def specProg (kept : List CardMem) (card : Option CardMem) : Prog → List Out → Option (List CardMem × List Out × Bool)
  | .ret, h => some (kept, h, false)
  | .throw, h => some (kept, h, true)
  | .op o k, h =>
    match card with
    | none => none
    | some c =>
      match cardCall c o with
      | .ok r => specProg kept (some r.1) (k r.2) (h ++ [r.2])
      | _ => none
  | .keep k, h =>
    match card with
    | none => none
    | some c => specProg (kept ++ [c]) card k h

/-- Specification: one call of the callback for an event. -/
def specCall (f : List Out → KeyEvent → Prog) (kept : List CardMem) (h : List Out) (ev : KeyEvent) :
    Option (List CardMem × List Out × Bool) :=
  specProg kept (ev.card.map fun t => ⟨t, none⟩) (f h ev) h

/-- Specification: the callback is called for each event, in order, until it throws. -/
def specCalls (f : List Out → KeyEvent → Prog) :
    List CardMem → List Out → List KeyEvent → Option (List CardMem × List Out × Bool)
  | kept, h, [] => some (kept, h, false)
  | kept, h, ev :: evs =>
    match specCall f kept h ev with
    | none => none
    | some (kept', h', true) => some (kept', h', true)
    | some (kept', h', false) => specCalls f kept' h' evs

/-- Specification: `parse_with_callback`: the calls for all events, the kept cards are `Card`s of their own, the
results of the callback are followed by the end of the function. An exception of the callback leaves the
function. -/
def Spec.parseCb (S : Spec) (c : Config) (keep : Bool) (r : Key.Shared) (kept : List CardMem) (h : List Out) :
    Bool → Spec × List Out
  | true => ({ S with cards := S.cards ++ kept.map fun c => some (.own c), leaks := S.leaks + c.extraPaths.length },
      h ++ [.exn])
  | false => ({ S with cards := S.cards ++ kept.map fun c => some (.own c), warns := addWarn S.warns keep r.warnings,
                       leaks := S.leaks + c.extraPaths.length }, h ++ [if r.errors = [] then .unit else .exn])

/-- Specification: one command; the last component: a callback has thrown. -/
def Spec.cstep (S : Spec) : CCmd → Option (Spec × List Out × Bool)
  | .plain c => do
    let r ← S.step c
    some (r.1, [r.2], false)
  | .parseCb w depth file x keep f => do
    let c ← sobj S.cfgs x
    let r ← val (parseTop w c depth file)
    let q ← specCalls f [] [] r.events
    some ((S.parseCb c keep r q.1 q.2.1 q.2.2).1, (S.parseCb c keep r q.1 q.2.1 q.2.2).2, q.2.2)

/-- Specification: a program; the last component: some callback has thrown. -/
def Spec.crun (S : Spec) : List CCmd → Option (Spec × List Out × Bool)
  | [] => some (S, [], false)
  | c :: cs => do
    let r ← S.cstep c
    let q ← Spec.crun r.1 cs
    some (q.1, r.2.1 ++ q.2.1, r.2.2 || q.2.2)

/-- Specification: no line of the files that a command parses ends with `+` (see C86). -/
def CCmd.NoCont : CCmd → Prop
  | .plain c => c.NoCont
  | .parseCb w _ _ _ _ _ => NoContinued w

/-! ## Auxiliary: the callback -/

/-- Auxiliary: the blocks of kept copies. -/
def keptBlks (kept : List CopyMem) : List Nat := kept.flatMap fun c => [c.blk, c.str]

theorem runProg_ok (p : Prog) : ∀ (m : Mem) (kept : List CopyMem) (card : Option CardMem) (h : List Out) (L : List Nat)
    (r : List CardMem × List Out × Bool), Owns m (keptBlks kept ++ L) →
    specProg (kept.map CopyMem.card) card p h = some r →
    ∃ m' kept', runProg m kept card p h = .ok (m', kept', r.2.1, r.2.2) ∧ kept'.map CopyMem.card = r.1 ∧
      Owns m' (keptBlks kept' ++ L) := by
  induction p with
  | ret =>
    intro m kept card h L r hm hr
    simp only [specProg, Option.some.injEq] at hr
    subst hr
    exact ⟨m, kept, rfl, rfl, hm⟩
  | throw =>
    intro m kept card h L r hm hr
    simp only [specProg, Option.some.injEq] at hr
    subst hr
    exact ⟨m, kept, rfl, rfl, hm⟩
  | op o k ih =>
    intro m kept card h L r hm hr
    cases card with
    | none => simp [specProg] at hr
    | some c =>
      simp only [specProg] at hr
      cases hc : cardCall c o with
      | ok q =>
        rw [hc] at hr
        simp only at hr
        obtain ⟨m', kept', e1, e2, e3⟩ := ih q.2 m kept (some q.1) _ L r hm hr
        refine ⟨m', kept', ?_, e2, e3⟩
        simp only [runProg, hc, Res.bind_ok]
        exact e1
      | err => rw [hc] at hr; simp at hr
      | ub => rw [hc] at hr; simp at hr
      | abort => rw [hc] at hr; simp at hr
  | keep k ih =>
    intro m kept card h L r hm hr
    cases card with
    | none => simp [specProg] at hr
    | some c =>
      simp only [specProg] at hr
      have h1 := alloc_ok hm
      have h2 := alloc_ok h1
      obtain ⟨m', kept', e1, e2, e3⟩ := ih m.alloc.1.alloc.1 (kept ++ [⟨m.alloc.2, m.alloc.1.alloc.2, c⟩]) (some c) h L r
        (h2.perm (by
          simp only [keptBlks, List.flatMap_append, List.flatMap_cons, List.flatMap_nil]
          perms))
        (by simpa using hr)
      exact ⟨m', kept', by simp only [runProg]; exact e1, e2, e3⟩

theorem runProg_bad (p : Prog) : ∀ (m : Mem) (kept : List CopyMem) (card : Option CardMem) (h : List Out),
    specProg (kept.map CopyMem.card) card p h = none → ∀ r, runProg m kept card p h ≠ .ok r := by
  induction p with
  | ret => intro m kept card h hr; simp [specProg] at hr
  | throw => intro m kept card h hr; simp [specProg] at hr
  | op o k ih =>
    intro m kept card h hr r
    cases card with
    | none => simp [runProg]
    | some c =>
      simp only [specProg] at hr
      cases hc : cardCall c o with
      | ok q =>
        rw [hc] at hr
        simp only [runProg, hc, Res.bind_ok]
        exact ih q.2 m kept (some q.1) _ hr r
      | err => simp only [runProg, hc]; intro e; cases e
      | ub => simp only [runProg, hc]; intro e; cases e
      | abort => simp only [runProg, hc]; intro e; cases e
  | keep k ih =>
    intro m kept card h hr r
    cases card with
    | none => simp [runProg]
    | some c =>
      simp only [specProg] at hr
      simp only [runProg]
      exact ih _ _ _ _ (by simpa using hr) r

theorem specCalls_snoc (f : List Out → KeyEvent → Prog) (ev : KeyEvent) : ∀ (evs : List KeyEvent) (kept : List CardMem)
    (h : List Out), specCalls f kept h (evs ++ [ev]) =
      match specCalls f kept h evs with
      | none => none
      | some (kept', h', true) => some (kept', h', true)
      | some (kept', h', false) => specCall f kept' h' ev
  | [], kept, h => by
    simp only [List.nil_append, specCalls]
    cases hc : specCall f kept h ev with
    | none => rfl
    | some r =>
      obtain ⟨a, b, c⟩ := r
      cases c <;> rfl
  | e :: evs, kept, h => by
    simp only [List.cons_append, specCalls]
    cases hc : specCall f kept h e with
    | none => rfl
    | some r =>
      obtain ⟨a, b, c⟩ := r
      cases c with
      | true => rfl
      | false => exact specCalls_snoc f ev evs a b

/-- Auxiliary: the kept copies of a state. -/
def CbSt.kept : CbSt → List CopyMem
  | .run k _ => k
  | .threw _ k _ => k
  | .bad k => k

/-- Auxiliary: the state has the values of the specification. -/
def CbRep (f : List Out → KeyEvent → Prog) (base : List Nat) (c : CbSt) (evs : List KeyEvent) : Prop :=
  match specCalls f [] [] evs with
  | none => ∃ k, c = .bad k
  | some (cards, h, false) => ∃ k, c = .run k h ∧ k.map CopyMem.card = cards
  | some (cards, h, true) => ∃ m k L, c = .threw m k h ∧ k.map CopyMem.card = cards ∧ Owns m (keptBlks k ++ base ++ L)

theorem cppCallback_ok (f : List Out → KeyEvent → Prog) (base : List Nat) :
    CallbackOk (cppCallback f) (fun c => keptBlks c.kept ++ base) (CbRep f base) := by
  intro m c evs ev L hr hm
  unfold CbRep at hr ⊢
  rw [specCalls_snoc]
  cases hs : specCalls f [] [] evs with
  | none =>
    rw [hs] at hr
    obtain ⟨k, rfl⟩ := hr
    exact ⟨m, .bad k, rfl, ⟨k, rfl⟩, hm⟩
  | some r =>
    obtain ⟨cards, h, b⟩ := r
    rw [hs] at hr
    cases b with
    | true =>
      obtain ⟨m0, k, L0, rfl, h1, h2⟩ := hr
      exact ⟨m, .threw m0 k h, rfl, ⟨m0, k, L0, rfl, h1, h2⟩, hm⟩
    | false =>
      obtain ⟨k, rfl, rfl⟩ := hr
      simp only [CbSt.kept] at hm
      cases hc : specCall f (k.map CopyMem.card) h ev with
      | none =>
        simp only [hc]
        refine ⟨m, .bad k, ?_, ⟨k, rfl⟩, hm⟩
        have := runProg_bad (f h ev) m k (ev.card.map fun t => ⟨t, none⟩) h hc
        simp only [cppCallback]
        cases hq : runProg m k (ev.card.map fun t => ⟨t, none⟩) (f h ev) h with
        | ok q => exact absurd hq (this q)
        | err => rfl
        | ub => rfl
        | abort => rfl
      | some q =>
        obtain ⟨m', k', e1, e2, e3⟩ := runProg_ok (f h ev) m k (ev.card.map fun t => ⟨t, none⟩) h (base ++ L) q
          (hm.perm (by perms)) hc
        obtain ⟨cards', h', b'⟩ := q
        simp only at e1 e2
        simp only [hc]
        cases b' with
        | true =>
          refine ⟨m', .threw m' k' h', ?_, ⟨m', k', L, rfl, e2, e3.perm (by perms)⟩, ?_⟩
          · simp only [cppCallback, e1, afterProg]
          · exact e3.perm (by simp only [CbSt.kept]; perms)
        | false =>
          refine ⟨m', .run k' h', ?_, ⟨k', rfl, e2⟩, ?_⟩
          · simp only [cppCallback, e1, afterProg]
          · exact e3.perm (by simp only [CbSt.kept]; perms)

/-! ## Auxiliary: the end -/

theorem addCard_ok {s : Sys} {S : Spec} {leak base : List Nat} {c : CopyMem}
    (h : Inv s S (c.blk :: c.str :: leak) base) :
    Inv (addCard s c) { S with cards := S.cards ++ [some (.own c.card)] } leak base := by
  refine ⟨h.files, h.fileOk, h.kws, h.kwsOk, h.kwsNodup, h.alive, h.slices, h.keys, ?_, ?_, ?_, h.cfgs, h.cfgOk, h.warns,
    ?_⟩
  · simp only [addCard, List.map_append, List.map_cons, List.map_nil, Option.map_some, absCard,
      List.getElem?_concat_length]
    rw [h.cards]
    congr 1
    refine List.map_congr_left (fun o ho => ?_)
    cases o with
    | none => rfl
    | some d => simp only [Option.map_some, absCard_append (h.cardOk d ho)]
  · intro d hd
    rcases mem_append_one hd with hd | hd
    · exact (h.cardOk d hd).append _
    · cases hd
      exact ⟨rfl, by simp [addCard]⟩
  · simp only [addCard, List.flatMap_append, List.flatMap_cons, List.flatMap_nil, List.append_nil, cardIds]
    rw [List.nodup_append]
    refine ⟨h.cardNodup, by simp, fun a ha b hb => ?_⟩
    simp only [List.mem_singleton] at hb
    have := ids_lt h ha
    omega
  · have e : s.cards.flatMap (cardBlks (s.copies ++ [c])) = s.cards.flatMap (cardBlks s.copies) :=
      flat_congr rfl (fun d hd => cardBlks_append (h.cardOk d hd) _)
    refine h.own.perm ?_
    simp only [Sys.blks, addCard, List.flatMap_append, List.flatMap_cons, List.flatMap_nil]
    rw [e]
    simp only [cardBlks, copyBlks, List.getElem?_concat_length]
    perms

theorem addCards_ok : ∀ (kept : List CopyMem) {s : Sys} {S : Spec} {leak base : List Nat},
    Inv s S (keptBlks kept ++ leak) base →
    Inv (addCards s kept) { S with cards := S.cards ++ (kept.map CopyMem.card).map fun c => some (.own c) } leak base
  | [], s, S, leak, base, h => by simpa [addCards, keptBlks] using h
  | c :: kept, s, S, leak, base, h => by
    have := addCards_ok kept (addCard_ok (c := c) (leak := keptBlks kept ++ leak) h)
    simpa [addCards] using this

theorem freeWarning_ok {keep : Bool} {m : Mem} {warn : Option Nat} {L : List Nat} (h : Owns m (warn.toList ++ L)) :
    ∃ m', freeWarning keep m warn = .ok m' ∧ Owns m' ((keepWarn keep warn).flatMap Option.toList ++ L) := by
  unfold freeWarning keepWarn
  cases keep with
  | true =>
    refine ⟨m, rfl, ?_⟩
    cases warn with
    | none => exact h
    | some b => exact h
  | false => exact freeOpt_ok h

theorem parseCb_ok {s : Sys} {S : Spec} {leak base : List Nat} (h : Inv s S leak base) {x : Nat} {c : Config}
    (hx : sobj S.cfgs x = some c) {w : World} {depth : Nat} {file : Bytes} {r : Key.Shared}
    (hr : parseTop w c depth file = .ok r) (keep : Bool) {f : List Out → KeyEvent → Prog}
    {kept : List CardMem} {outs : List Out} {thrown : Bool} (hq : specCalls f [] [] r.events = some (kept, outs, thrown)) :
    ∃ s' leak', cstep s (.parseCb w depth file x keep f) = .ok (s', (S.parseCb c keep r kept outs thrown).2) ∧
      Inv s' (S.parseCb c keep r kept outs thrown).1 leak' base ∧
      (NoContinued w → thrown = false →
        leak'.length + S.leaks = leak.length + (S.parseCb c keep r kept outs thrown).1.leaks) := by
  rw [h.cfgs] at hx
  obtain ⟨d, d1, rfl, d3⟩ := sobj_map hx
  obtain ⟨m1, c1, e1, e2, e3, e4⟩ := copyCfgM_ok h.own (h.cfgOk d (mem_of_get d1)) (fun b hb => by
    have := mem_flat (f := cfgBlks) d1 hb
    simp only [Sys.blks, List.mem_append]
    exact .inl (.inl (.inl (.inr this))))
  obtain ⟨o, lk, a1, a2, a3, a4, a5, a6, a7⟩ := c86_parse_partial
    (cppCallback_ok f (c1.arr.toList ++ c1.strs ++ (s.blks ++ leak ++ base))) w d.cfg depth file true true m1
    (.run [] []) [] (e4.perm (by simp only [CbSt.kept, keptBlks, List.flatMap_nil]; perms)) ⟨[], rfl, rfl⟩ r hr
  rw [Bool.true_and] at a5 a6
  unfold CbRep at a3
  rw [hq] at a3
  have hstrs : c1.strs.length = d.cfg.extraPaths.length := by rw [e3.1, e2]
  cases thrown with
  | true =>
    obtain ⟨m2, k, L, u1, rfl, u3⟩ := a3
    obtain ⟨m3, g1, g2⟩ := dropCfgM_ok (m := m2) (c := c1) (L := keptBlks k ++ (s.blks ++ leak ++ base) ++ L)
      (u3.perm (by perms))
    have hinv : Inv { s with m := m3 } { S with leaks := S.leaks + d.cfg.extraPaths.length }
        (keptBlks k ++ (c1.strs ++ L ++ leak)) base :=
      ⟨h.files, h.fileOk, h.kws, h.kwsOk, h.kwsNodup, h.alive, h.slices, h.keys, h.cards, h.cardOk, h.cardNodup, h.cfgs,
        h.cfgOk, h.warns, g2.perm (by simp only [Sys.blks]; perms)⟩
    refine ⟨addCards { s with m := m3 } k, c1.strs ++ L ++ leak, ?_, addCards_ok k hinv, fun _ hf => by cases hf⟩
    simp only [cstep, d3, Res.bind_ok, parseCallbackM, e1, e2, a1, callbackEnd, u1, g1, Spec.parseCb]
  | false =>
    obtain ⟨k, u1, rfl⟩ := a3
    rw [u1] at a4
    simp only [CbSt.kept] at a4
    obtain ⟨m2, b1, b2⟩ := freeWarning_ok (keep := keep) (m := o.mem) (warn := o.warn)
      (L := o.err.toList ++ (keptBlks k ++ (c1.arr.toList ++ c1.strs ++ (s.blks ++ leak ++ base)) ++ lk))
      (a4.perm (by perms))
    obtain ⟨m3, f1, f2⟩ := freeOpt_ok (m := m2) (p := o.err) (L := (keepWarn keep o.warn).flatMap Option.toList ++
      (keptBlks k ++ (c1.arr.toList ++ c1.strs ++ (s.blks ++ leak ++ base)) ++ lk)) (b2.perm (by perms))
    obtain ⟨m4, g1, g2⟩ := dropCfgM_ok (m := m3) (c := c1) (L := (keepWarn keep o.warn).flatMap Option.toList ++
      (keptBlks k ++ (s.blks ++ leak ++ base) ++ lk)) (f2.perm (by perms))
    have hwarns := keepWarn_spec keep o.warn r.warnings a6 s.warns
    have hinv : Inv { s with m := m4, warns := s.warns ++ keepWarn keep o.warn }
        { S with warns := addWarn S.warns keep r.warnings, leaks := S.leaks + d.cfg.extraPaths.length }
        (keptBlks k ++ (c1.strs ++ lk ++ leak)) base :=
      ⟨h.files, h.fileOk, h.kws, h.kwsOk, h.kwsNodup, h.alive, h.slices, h.keys, h.cards, h.cardOk, h.cardNodup, h.cfgs,
        h.cfgOk, by simp only [h.warns, hwarns], g2.perm (by simp only [Sys.blks, List.flatMap_append]; perms)⟩
    refine ⟨addCards { s with m := m4, warns := s.warns ++ keepWarn keep o.warn } k, c1.strs ++ lk ++ leak, ?_,
      addCards_ok k hinv, fun hn _ => ?_⟩
    · have he : (if o.err.isSome = true then Out.exn else Out.unit) = if r.errors = [] then .unit else .exn := by
        rw [a5]
        by_cases hz : r.errors = [] <;> simp [hz]
      simp only [cstep, d3, Res.bind_ok, parseCallbackM, e1, e2, a1, callbackEnd, u1, b1, f1, g1, Spec.parseCb, he]
    · have := a7 hn
      subst this
      simp only [Spec.parseCb, List.length_append, List.length_nil]
      omega

theorem crun_ok : ∀ (p : List CCmd) {s : Sys} {S S' : Spec} {leak base : List Nat} {outs : List Out} {thrown : Bool},
    Inv s S leak base → S.crun p = some (S', outs, thrown) →
    ∃ s' leak', crun s p = .ok (s', outs) ∧ Inv s' S' leak' base ∧
      ((∀ c ∈ p, c.NoCont) → thrown = false → leak'.length + S.leaks = leak.length + S'.leaks)
  | [], s, S, S', leak, base, outs, thrown, h, hr => by
    simp only [Spec.crun, Option.some.injEq, Prod.mk.injEq] at hr
    obtain ⟨rfl, rfl, rfl⟩ := hr
    exact ⟨s, leak, rfl, h, fun _ _ => rfl⟩
  | c :: p, s, S, S', leak, base, outs, thrown, h, hr => by
    obtain ⟨r, h1, hr⟩ := bind_some_inv hr
    obtain ⟨q, h2, hr⟩ := bind_some_inv hr
    simp only [Option.some.injEq, Prod.mk.injEq] at hr
    obtain ⟨rfl, rfl, rfl⟩ := hr
    have hstep : ∃ s1 l1, cstep s c = .ok (s1, r.2.1) ∧ Inv s1 r.1 l1 base ∧
        (c.NoCont → r.2.2 = false → l1.length + S.leaks = leak.length + r.1.leaks) := by
      cases c with
      | plain c =>
        obtain ⟨t, t1, t2⟩ := bind_some_inv h1
        simp only [Option.some.injEq] at t2
        subst t2
        obtain ⟨s1, l1, e1, i1, k1⟩ := step_ok (S' := t.1) (o := t.2) h c t1
        exact ⟨s1, l1, by simp only [cstep, e1, Res.bind_ok], i1, fun hn _ => k1 hn⟩
      | parseCb w depth file x keep f =>
        obtain ⟨cfg, t1, h1⟩ := bind_some_inv h1
        obtain ⟨sh, t2, h1⟩ := bind_some_inv h1
        obtain ⟨u, t3, h1⟩ := bind_some_inv h1
        simp only [Option.some.injEq] at h1
        subst h1
        obtain ⟨kept, hh, b⟩ := u
        exact parseCb_ok h t1 (val_some t2) keep t3
    obtain ⟨s1, l1, e1, i1, k1⟩ := hstep
    obtain ⟨s2, l2, e2, i2, k2⟩ := crun_ok p (S' := q.1) (outs := q.2.1) (thrown := q.2.2) i1 h2
    refine ⟨s2, l2, by simp only [crun, e1, Res.bind_ok, e2], i2, fun hn ht => ?_⟩
    rw [Bool.or_eq_false_iff] at ht
    have := k1 (hn c List.mem_cons_self) ht.1
    have := k2 (fun c hc => hn c (List.mem_cons_of_mem _ hc)) ht.2
    omega

/-! ## Theorems -/

/-- C95: every program of C93 that also parses key files with callbacks and that is right in the world of values (where
each callback is called once for each keyword without cards and each card of the parse, in order, until it throws, where
the cards that it copies are values of their own, and where errors of the parse throw after the last call) runs
without an error in the use of memory and with the same results; the copies are `Card`s of the program that can be used
and destroyed later as any other. Without an exception of a callback, the blocks that are allocated in the end are those
of the existing objects and `leaks` others. What is missing: `leaks` should be 0 (see C93), and an exception of a
callback should lose nothing (`c95_throw_leak`). -/
theorem c95_callback_partial (m : Mem) (p : List CCmd) (S : Spec) (outs : List Out) (thrown : Bool)
    (h : Spec.crun {} p = some (S, outs, thrown)) :
    ∃ s leak, crun { m := m } p = .ok (s, outs) ∧ Owns s.m (s.blks ++ leak ++ m.live) ∧
      ((∀ c ∈ p, c.NoCont) → thrown = false → leak.length = S.leaks) := by
  obtain ⟨s, leak, h1, h2, h3⟩ := crun_ok p (init_inv m) h
  refine ⟨s, leak, h1, h2.own, fun hn ht => ?_⟩
  have := h3 hn ht
  simpa using this

/-- C95: if the program has destroyed all its objects, has assigned to no `Card` that owned a card, used no extra
include paths, and no callback has thrown, everything has been released. -/
theorem c95_no_leak (m : Mem) (p : List CCmd) (S : Spec) (outs : List Out) (h : Spec.crun {} p = some (S, outs, false))
    (he : S.Empty) (hl : S.leaks = 0) (hn : ∀ c ∈ p, c.NoCont) :
    ∃ s, crun { m := m } p = .ok (s, outs) ∧ s.m.live.Perm m.live := by
  obtain ⟨s, leak, h1, h2, h3⟩ := crun_ok p (init_inv m) h
  refine ⟨s, h1, h2.own.trans ?_⟩
  have hz : leak = [] := by
    have := h3 hn rfl
    exact List.length_eq_zero_iff.1 (by simpa [hl] using this)
  obtain ⟨e1, e2, e3, e4⟩ := he
  rw [h2.kws] at e1
  rw [h2.cards] at e2
  rw [h2.cfgs] at e3
  rw [h2.warns] at e4
  have b1 : s.kws.flatMap (kwsBlks s.files) = [] := List.flatMap_eq_nil_iff.2 (fun o ho => by
    have := e1 _ (List.mem_map.2 ⟨o, ho, rfl⟩)
    rw [Option.map_eq_none_iff] at this
    rw [this]; rfl)
  have b2 : s.cards.flatMap (cardBlks s.copies) = [] := List.flatMap_eq_nil_iff.2 (fun o ho => by
    have := e2 _ (List.mem_map.2 ⟨o, ho, rfl⟩)
    rw [Option.map_eq_none_iff] at this
    rw [this]; rfl)
  have b3 : s.cfgs.flatMap cfgBlks = [] := List.flatMap_eq_nil_iff.2 (fun o ho => by
    have := e3 _ (List.mem_map.2 ⟨o, ho, rfl⟩)
    rw [Option.map_eq_none_iff] at this
    rw [this]; rfl)
  have b4 : s.warns.flatMap Option.toList = [] := List.flatMap_eq_nil_iff.2 (fun o ho => by
    have := e4 _ (List.mem_map.2 ⟨o, ho, rfl⟩)
    cases o with
    | none => rfl
    | some b => simp at this)
  simp only [Sys.blks, b1, b2, b3, b4, hz]
  exact List.Perm.refl _

/-- Specification of the examples: results and number of blocks. -/
def csummary (p : List CCmd) : Res (List Out × Nat) := do
  let r ← crun {} p
  .ok (r.2, r.1.m.live.length)

/-- Specification of the examples: results, whether a callback has thrown, objects that exist, leaks. -/
def cspecSummary (p : List CCmd) : Option (List Out × Bool × List Bool × Nat) :=
  (Spec.crun {} p).map fun r => (r.2.1, r.2.2, r.1.kws.map Option.isSome ++ r.1.cards.map Option.isSome ++
    r.1.cfgs.map Option.isSome ++ r.1.warns, r.1.leaks)

/-- The callback of the examples: the cards of `NODE` are begun, their first field is read, and a copy is kept; the
whole text of other cards is read; `throws`: at the second card of `NODE` it throws. -/
def exampleCallback (throws : Bool) (h : List Out) (ev : KeyEvent) : Prog :=
  if ev.card = none then .ret
  else if ev.name = bs "NODE" then
    .op (.begin 2) fun _ => .op .parseInt fun r => .keep (if throws ∧ r = .int 2 ∧ h ≠ [] then .throw else .ret)
  else .op .whole fun _ => .ret

/-- The program of the examples: the copies are used and destroyed after the parse. -/
def callbackProgram (throws : Bool) : List CCmd :=
  [.plain (.newCfg {}), .parseCb Key.infoWorld 3 (bs "/w/m.k") 0 false (exampleCallback throws), .plain (.dropCfg 0),
   .plain (.op 1 .parseInt), .plain (.op 0 .next), .plain (.op 0 .done), .plain (.dropCard 0), .plain (.op 1 .parseInt),
   .plain (.dropCard 1)]

/-- Not vacuous: the example is right, its copies have the values of the cards, and everything is released. -/
theorem c95_example :
    cspecSummary (callbackProgram false) = some ([.unit, .unit, .int 1, .unit, .int 2, .text (bs "t"), .unit,
      .unit, .int 2, .unit, .bool true, .unit, .int 2, .unit], false, [false, false, false], 0) ∧
    (∀ c ∈ callbackProgram false, c.NoCont) ∧
    csummary (callbackProgram false) = .ok ([.unit, .unit, .int 1, .unit, .int 2, .text (bs "t"), .unit,
      .unit, .int 2, .unit, .bool true, .unit, .int 2, .unit], 0) := by
  refine ⟨by decide +kernel, ?_, by decide +kernel⟩
  have hn := noContinued_text c86_example.1
  simp [callbackProgram, CCmd.NoCont, Cmd.NoCont, hn]

/-- C95 is violated: an exception of the callback leaves the function at once (the later calls do not happen), and what
`key_file_parse_with_callback` has allocated is lost: after all objects have been destroyed 6 blocks are still
allocated. -/
theorem c95_throw_leak :
    cspecSummary (callbackProgram true) = some ([.unit, .unit, .int 1, .unit, .int 2, .exn,
      .unit, .int 2, .unit, .bool true, .unit, .int 2, .unit], true, [false, false, false], 0) ∧
    csummary (callbackProgram true) = .ok ([.unit, .unit, .int 1, .unit, .int 2, .exn,
      .unit, .int 2, .unit, .bool true, .unit, .int 2, .unit], 6) := by
  decide +kernel

/-- C95: a callback that uses the card of a keyword without cards (`std::nullopt`), or reads a field before `begin`, is
wrong. -/
theorem c95_wrong (h : List Out) (t : Bytes) (o : CardOp) (k : Out → Prog) (k' : Prog) :
    specProg [] none (.op o k) h = none ∧ specProg [] none (.keep k') h = none ∧
    (o = .next ∨ o = .done ∨ o = .parseInt ∨ o = .parseString → specProg [] (some ⟨t, none⟩) (.op o k) h = none) := by
  refine ⟨rfl, rfl, ?_⟩
  rintro (rfl | rfl | rfl | rfl) <;> rfl

end Dyna.KeyOwn
