import Verif.Props.D3MemSim
import Verif.D3PlotInv
/-!
# C89: memory and file handles of a d3plot, opening and closing
-/

namespace Dyna.D3Mem

open Dyna.KeyMem Dyna.BinoutMem Dyna.D3

/-! ## After an error no pointer is open -/

/-- An error of the buffer has closed the pointer. -/
def Shut (s : S) : Prop := s.b.ws ≤ 8 ∧ (s.b.err = true → s.p = none)

/-- A step that keeps this. -/
def Keep {α : Type} (m : M α) : Prop := ∀ s a s', Shut s → m s = .ok (a, s') → Shut s'

theorem Keep.ret {α : Type} (a : α) : Keep (pure a : M α) := by
  intro s x s' h e; cases e; exact h

theorem Keep.bind {α β : Type} {m : M α} {f : α → M β} (hm : Keep m) (hf : ∀ a, Keep (f a)) : Keep (m >>= f) := by
  intro s x s' h e
  obtain ⟨a, s1, e1, e2⟩ := bind_inv e
  exact hf _ _ _ _ (hm _ _ _ h e1) e2

theorem Keep.ite {α : Type} {c : Prop} [Decidable c] {m m' : M α} (h : Keep m) (h' : Keep m') :
    Keep (if c then m else m') := by split <;> assumption

theorem Keep.fail {α : Type} : Keep (fail : M α) := by intro s x s' h e; cases e

theorem Keep.failClose {α : Type} : Keep (failClose : M α) := by
  intro s x s' h e
  unfold D3.failClose at e
  split at e <;> cases e

theorem Keep.undef {α : Type} : Keep (undef : M α) := by intro s x s' h e; cases e

theorem Keep.rdBytes : Keep (rdBytes 1) := by
  intro s x s' h e
  obtain ⟨hw, h⟩ := h
  unfold D3.rdBytes readWords at e
  cases hp : s.p with
  | none => rw [hp] at e; cases e
  | some q =>
    have he : s.b.err = false := by
      cases hb : s.b.err with
      | false => rfl
      | true => rw [h hb] at hp; cases hp
    have hm : 1 * s.b.ws % u64 = s.b.ws := by unfold u64; omega
    rw [hp, hm, Nat.one_mul] at e
    dsimp only at e
    cases hf : s.b.files[q.file]? with
    | none => rw [hf] at e; cases e
    | some cur =>
      rw [hf] at e
      dsimp only at e
      by_cases hc : s.b.ws ≤ cur.length - q.pos
      · rw [if_pos hc, if_pos hc] at e
        cases e
        exact ⟨hw, fun h2 => by rw [he] at h2; cases h2⟩
      · rw [if_neg hc] at e
        generalize readLoop s.b.ws (s.b.files.drop (q.file + 1)) cur q s.b.ws [] = r at e
        obtain ⟨q', bs⟩ := r
        cases q' with
        | none => cases e; exact ⟨hw, fun _ => rfl⟩
        | some q' => cases e; exact ⟨hw, fun h2 => by rw [he] at h2; cases h2⟩

theorem Keep.rd : Keep D3.rd := Keep.bind Keep.rdBytes fun _ => Keep.ret _

theorem Keep.rdSigned : Keep rdSigned := by
  intro s x s' h e
  unfold D3.rdSigned at e
  split at e <;> cases e
  rename_i e1
  exact Keep.rd _ _ _ h e1

theorem Keep.skip (n : Nat) : Keep (skip n) := by
  intro s x s' h e
  obtain ⟨hw, h⟩ := h
  unfold D3.skip skipWords at e
  cases hp : s.p with
  | none =>
    rw [hp] at e
    cases e
    exact ⟨hw, fun _ => rfl⟩
  | some q =>
    rw [hp] at e
    dsimp only at e
    have he : s.b.err = false := by
      cases hb : s.b.err with
      | false => rfl
      | true => rw [h hb] at hp; cases hp
    by_cases hc : ulongMax - n ≤ q.word
    · rw [if_pos hc] at e
      cases e
      exact ⟨hw, fun _ => rfl⟩
    · rw [if_neg hc] at e
      unfold seek at e
      cases hl : locate s.b.files 0 ((q.word + n) * s.b.ws % u64) with
      | none => rw [hl] at e; cases e; exact ⟨hw, fun _ => rfl⟩
      | some r => rw [hl] at e; cases e; exact ⟨hw, fun h2 => by rw [he] at h2; cases h2⟩

theorem Keep.skipB (n : Nat) : Keep (skipB n) := fun s x s' h e => Keep.skip _ s x s' h e

theorem Keep.skipIf (c : Prop) [Decidable c] (n : Nat) : Keep (skipIf c n) := Keep.ite (Keep.skip n) (Keep.ret _)

theorem Keep.hasErr : Keep hasErr := by intro s x s' h e; cases e; exact h

theorem Keep.clearErr : Keep clearErr := by intro s x s' h e; cases e; exact ⟨h.1, fun h2 => by cases h2⟩

theorem Keep.curWord : Keep curWord := by intro s x s' h e; cases e; exact h

theorem Keep.wordSize : Keep wordSize := by intro s x s' h e; cases e; exact h

theorem Keep.toNextFile : Keep toNextFile := by
  intro s x s' h e
  obtain ⟨hw, h⟩ := h
  unfold D3.toNextFile at e
  cases hp : s.p with
  | none => rw [hp] at e; cases e
  | some q =>
    have he : s.b.err = false := by
      cases hb : s.b.err with
      | false => rfl
      | true => rw [h hb] at hp; cases hp
    cases hn : nextFile s.b s.p with
    | ok r => rw [hn] at e; cases e; exact ⟨hw, fun h2 => by rw [he] at h2; cases h2⟩
    | err => rw [hn] at e; cases e
    | ub => rw [hn] at e; cases e
    | abort => rw [hn] at e; cases e

/-- Auxiliary: every step keeps that an error has closed the pointer. -/
syntax "keeps" ("[" term,* "]")? : tactic

macro_rules
  | `(tactic| keeps) => `(tactic| keeps [])
  | `(tactic| keeps [$ts,*]) => `(tactic| (
  repeat with_reducible first
    | intro _
    | refine Keep.bind ?_ ?_
    | exact Keep.ret _
    | exact Keep.fail | exact Keep.failClose | exact Keep.undef | exact Keep.rd | exact Keep.rdBytes
    | exact Keep.rdSigned | exact Keep.skip _ | exact Keep.skipIf _ _ | exact Keep.skipB _ | exact Keep.hasErr
    | exact Keep.clearErr | exact Keep.curWord | exact Keep.wordSize | exact Keep.toNextFile
    | assumption
    $[| refine $ts]*
    | refine Keep.ite ?_ ?_))

theorem Keep.readRaw : Keep readRaw := by unfold D3.readRaw; keeps

theorem Keep.skipParts : ∀ n, Keep (skipParts n)
  | 0 => Keep.ret _
  | n + 1 => Keep.bind (Keep.skip _) fun _ => Keep.skipParts n

theorem Keep.readExtra (n : Nat) : Keep (readExtra n) := by unfold D3.readExtra; keeps [Keep.skipParts _]

theorem Keep.readGeometry (c : Cda) (d : Ptrs) : Keep (readGeometry c d) := by unfold D3.readGeometry; keeps

theorem Keep.readUserIds (c : Cda) (d : Ptrs) : Keep (readUserIds c d) := by unfold D3.readUserIds; keeps

theorem Keep.readExtraConnectivity (c : Cda) : Keep (readExtraConnectivity c) := by
  unfold D3.readExtraConnectivity; keeps

theorem Keep.readAdapted (c : Cda) : Keep (readAdapted c) := by unfold D3.readAdapted; keeps

theorem Keep.readHeader : ∀ (fuel : Nat) (d : Ptrs), Keep (D3.readHeader d fuel) := by
  intro fuel
  induction fuel with
  | zero => intro d; exact Keep.fail
  | succ n ih =>
    intro d
    unfold D3.readHeader
    keeps [ih _]

theorem Keep.skipAll : ∀ l, Keep (skipAll l)
  | [] => Keep.ret _
  | _ :: l => Keep.bind (Keep.skip _) fun _ => Keep.skipAll l

theorem Keep.orStop (d : Ptrs) {m : M (Ptrs × D3.Found)} (h : Keep m) : Keep (orStop d m) := by
  unfold D3.orStop; keeps

theorem Keep.readElements (c : Cda) (first : Bool) (start : Nat) (d : Ptrs) : Keep (readElements c first start d) := by
  unfold D3.readElements; keeps [Keep.orStop _ ?_]

theorem Keep.readNodes (c : Cda) (first : Bool) (start : Nat) (d : Ptrs) : Keep (readNodes c first start d) := by
  unfold D3.readNodes; keeps [Keep.orStop _ ?_, Keep.readElements _ _ _ _]

theorem Keep.readState (c : Cda) (n : Nat) (first : Bool) (d : Ptrs) : Keep (readState c n first d) := by
  unfold D3.readState; keeps [Keep.orStop _ ?_, Keep.readNodes _ _ _ _, Keep.skipAll _]

/-! ## The end of the states -/

/-- The end has been found: the pointer is closed. -/
def Ends (m : M (Ptrs × D3.Found)) : Prop := ∀ s d s', Shut s → m s = .ok ((d, .finish), s') → s'.p = none

theorem Ends.orStop (d : Ptrs) {m : M (Ptrs × D3.Found)} (h : Ends m) : Ends (orStop d m) := by
  intro s d' s' hs e
  unfold D3.orStop at e
  obtain ⟨x, t, e1, e⟩ := bind_inv e
  cases e1
  split at e
  · rename_i hx
    cases e
    exact hs.2 hx
  · exact h _ _ _ hs e

theorem Ends.bind {α : Type} {m : M α} {f : α → M (Ptrs × D3.Found)} (h : Keep m) (hf : ∀ a, Ends (f a)) :
    Ends (m >>= f) := by
  intro s d s' hs e
  obtain ⟨a, t, e1, e⟩ := bind_inv e
  exact hf _ _ _ _ (h _ _ _ hs e1) e

theorem Ends.ite {c : Prop} [Decidable c] {m m' : M (Ptrs × D3.Found)} (h : Ends m) (h' : Ends m') :
    Ends (if c then m else m') := by split <;> assumption

theorem Ends.fail : Ends fail := by intro s d s' _ e; cases e

theorem Ends.state (d : Ptrs) (w : Nat) : Ends (pure (d, .state w)) := by intro s d s' _ e; cases e

theorem Ends.eof (d : Ptrs) : Ends (pure (d, .eof)) := by intro s d s' _ e; cases e

/-- Auxiliary: the end has been found only after an error. -/
syntax "ends" ("[" term,* "]")? : tactic

macro_rules
  | `(tactic| ends) => `(tactic| ends [])
  | `(tactic| ends [$ts,*]) => `(tactic| (
  repeat with_reducible first
    | intro _
    | refine Ends.orStop _ ?_
    | refine Ends.bind (m := hasErr) Keep.hasErr ?_
    | refine Ends.bind (m := curWord) Keep.curWord ?_
    | refine Ends.bind (m := wordSize) Keep.wordSize ?_
    | refine Ends.bind Keep.rdBytes ?_
    | refine Ends.bind (Keep.skip _) ?_
    | refine Ends.bind (Keep.skipIf _ _) ?_
    | refine Ends.bind (Keep.skipAll _) ?_
    | exact Ends.fail
    | exact Ends.state _ _
    | exact Ends.eof _
    $[| refine $ts]*
    | refine Ends.ite ?_ ?_))

theorem Ends.readElements (c : Cda) (first : Bool) (start : Nat) (d : Ptrs) : Ends (readElements c first start d) := by
  unfold D3.readElements; ends

theorem Ends.readNodes (c : Cda) (first : Bool) (start : Nat) (d : Ptrs) : Ends (readNodes c first start d) := by
  unfold D3.readNodes; ends [Ends.readElements _ _ _ _]

theorem Ends.readState (c : Cda) (n : Nat) (first : Bool) (d : Ptrs) : Ends (readState c n first d) := by
  unfold D3.readState; ends [Ends.readNodes _ _ _ _]

theorem toNextFile_false {s s' : S} (e : toNextFile s = .ok (false, s')) : s'.p = none := by
  unfold D3.toNextFile at e
  split at e
  · simp only [Res.ok.injEq, Prod.mk.injEq] at e
    obtain ⟨e1, rfl⟩ := e
    simpa using e1
  · cases e
  · cases e
  · cases e

theorem readStates_end (c : Cda) (n : Nat) : ∀ (fuel : Nat) {d : Ptrs} {l : List Nat} {s s' : S} {a : Ptrs × List Nat},
    Shut s → readStates c n fuel d l s = .ok (a, s') → s'.p = none := by
  intro fuel
  induction fuel with
  | zero => intro d l s s' a _ e; cases e
  | succ k ih =>
    intro d l s s' a hs e
    unfold readStates at e
    obtain ⟨⟨d', f⟩, t, e1, e⟩ := bind_inv e
    have ht := Keep.readState _ _ _ _ _ _ _ hs e1
    cases f with
    | finish =>
      cases e
      exact Ends.readState _ _ _ _ _ _ _ hs e1
    | state st => exact ih ht e
    | eof =>
      obtain ⟨x, t', e2, e⟩ := bind_inv e
      have ht' := Keep.toNextFile _ _ _ ht e2
      cases x with
      | true => exact ih ht' e
      | false =>
        cases e
        exact toNextFile_false e2

theorem readBody_end {fuel : Nat} {c : Cda} {s s' : S} {a : Nat × Ptrs × List Nat} (hs : Shut s)
    (e : readBody fuel c s = .ok (a, s')) : s'.p = none := by
  unfold readBody at e
  obtain ⟨d, s1, e1, e⟩ := bind_inv e
  replace hs := Keep.readGeometry _ _ _ _ _ hs e1
  obtain ⟨⟨d, n⟩, s2, e2, e⟩ := bind_inv e
  replace hs := Keep.readUserIds _ _ _ _ _ hs e2
  obtain ⟨_, s3, e3, e⟩ := bind_inv e
  replace hs := Keep.readExtraConnectivity _ _ _ _ hs e3
  obtain ⟨_, s4, e4, e⟩ := bind_inv e
  replace hs := Keep.readAdapted _ _ _ _ hs e4
  obtain ⟨_, s5, e5, e⟩ := bind_inv e
  replace hs := Keep.wordSize _ _ _ hs e5
  obtain ⟨_, s6, e6, e⟩ := bind_inv e
  replace hs := Keep.rdBytes _ _ _ hs e6
  replace e := (ite_failClose_inv e).2
  obtain ⟨_, s7, e7, e⟩ := bind_inv e
  replace hs := Keep.readHeader _ _ _ _ _ hs e7
  replace e := (ite_failClose_inv e).2
  obtain ⟨_, s8, e8, e⟩ := bind_inv e
  replace hs := Keep.toNextFile _ _ _ hs e8
  replace e := (ite_failClose_inv e).2
  obtain ⟨⟨d, l⟩, s9, e9, e⟩ := bind_inv e
  cases e
  exact readStates_end _ _ _ hs e9

theorem openHead_end {fuel : Nat} {s s' : S} {a : Cda × Nat × Ptrs × List Nat} (hs : Shut s)
    (e : openHead fuel s = .ok (a, s')) : s'.p = none := by
  unfold openHead at e
  obtain ⟨_, t1, e1, e⟩ := bind_inv e
  replace hs := Keep.skip _ _ _ _ hs e1
  obtain ⟨_, t2, e2, e⟩ := bind_inv e
  replace hs := Keep.skip _ _ _ _ hs e2
  obtain ⟨ft, t3, e3, e⟩ := bind_inv e
  replace hs := Keep.rd _ _ _ hs e3
  replace e := (ite_failClose_inv e).2
  unfold readPlot at e
  obtain ⟨_, t4, e4, e⟩ := bind_inv e
  replace hs := Keep.skip _ _ _ _ hs e4
  obtain ⟨_, t5, e5, e⟩ := bind_inv e
  replace hs := Keep.skip _ _ _ _ hs e5
  obtain ⟨_, t6, e6, e⟩ := bind_inv e
  replace hs := Keep.skip _ _ _ _ hs e6
  obtain ⟨raw, t7, e7, e⟩ := bind_inv e
  replace hs := Keep.readRaw _ _ _ hs e7
  obtain ⟨ext, t8, e8, e⟩ := bind_inv e
  replace hs := Keep.readExtra _ _ _ _ hs e8
  obtain ⟨err, t9, e9, e⟩ := bind_inv e
  cases e9
  replace e := (ite_failClose_inv e).2
  cases hder : derive raw ext with
  | ub => rw [hder] at e; cases e
  | abort => rw [hder] at e; cases e
  | err =>
    rw [hder] at e
    exact absurd e (by intro h; change D3.failClose _ = _ at h; unfold D3.failClose at h; split at h <;> cases h)
  | ok c' =>
    rw [hder] at e
    simp only at e
    replace e := (ite_failClose_inv e).2
    obtain ⟨⟨n', d', l'⟩, t10, e10, e⟩ := bind_inv e
    cases e
    exact readBody_end hs e10

/-! ## `d3plot_open` -/

theorem locate_zero {files : List Bytes} (h : 0 < files.flatten.length) : ∀ i, ∃ r, locate files i 0 = some r := by
  induction files with
  | nil => simp at h
  | cons f fs ih =>
    intro i
    unfold locate
    by_cases hf : f.length > 0
    · rw [if_pos hf]
      exact ⟨_, rfl⟩
    · rw [if_neg hf, Nat.zero_sub]
      exact ih (by simp only [List.flatten_cons, List.length_append] at h; omega) _

theorem seek_start {files : List Bytes} {b : Buf} (h : openBuf files = .ok b) : (seek b 0).1 = b := by
  obtain ⟨h1, h2, h3, h4⟩ := openBuf_inv h
  unfold seek
  rw [Nat.zero_mul, Nat.zero_mod]
  obtain ⟨r, hr⟩ := locate_zero (files := b.files) (by rw [h1]; omega) 0
  rw [hr]

/-- Specification: the blocks of a file. -/
def Han.own (h : Han) : List Nat := h.x.own ++ (h.perr.toList ++ h.dp.toList)

/-- The state of an open file; `F` are the blocks of others. -/
def Ready (F : List Nat) (p : PlotM) : Prop :=
  Inv (p.h.perr.toList ++ (p.h.dp.toList ++ F)) p.h.x none ∧ p.h.dp.isSome = true

/-- Specification: an open file without its blocks. -/
def PlotM.plot (p : PlotM) : Plot := ⟨p.cda, p.numrbs, p.ptrs, p.states, p.h.x.data⟩

/-- Specification: an open file. -/
def Han.opened (h : Han) (v : Cda × Nat × Ptrs × List Nat) : PlotM := ⟨h, v.1, v.2.1, v.2.2.1, v.2.2.2⟩

/-- The two versions of `d3plot_open` agree. -/
inductive Opened (F : List Nat) : Res (Han × Option (Cda × Nat × Ptrs × List Nat)) → Res Plot → Prop
  | ok {h : Han} {v : Cda × Nat × Ptrs × List Nat} (hr : Ready F (h.opened v)) (hp : h.perr = none) :
    Opened F (.ok (h, some v)) (.ok (h.opened v).plot)
  | err {h : Han} (hf : Failed F h) : Opened F (.ok (h, none)) .err
  | ub : Opened F .ub .ub
  | abort : Opened F .abort .abort

theorem openPlot_eq (files : List Bytes) {b : Buf} (h : openBuf files = .ok b) :
    openPlot files = match openHead (files.flatten.length + files.length + 1) ⟨b, (seek b 0).2⟩ with
      | .ok ((c, numrbs, d, states), s) => .ok ⟨c, numrbs, d, states, s.b⟩
      | .err => .err
      | .ub => .ub
      | .abort => .abort := by
  unfold openPlot
  rw [h]
  dsimp only
  have e : ((do
      skip 10
      skip 1
      let fileType ← D3.rd
      let fileType := if fileType > 1000 then fileType - 1000 else fileType
      if fileType ≠ 1 then D3.failClose
      else readPlot (files.flatten.length + files.length + 1)) : M (Cda × Nat × Ptrs × List Nat)) =
      openHead (files.flatten.length + files.length + 1) := rfl
  rw [e]
  cases openHead (files.flatten.length + files.length + 1) ⟨b, (seek b 0).2⟩ <;> rfl

theorem openPlotM_ok {F : List Nat} {m : Mem} (abs : Bool) (files : List Bytes) (hm : Heap m F []) :
    Opened F (openPlotM abs m files) (openPlot files) := by
  unfold openPlotM
  have ho := openBufM_ok abs files hm
  generalize openBufM abs m files = x at ho
  generalize hb : openBuf files = y at ho
  cases ho with
  | ub => unfold openPlot; rw [hb]; exact .ub
  | abort => unfold openPlot; rw [hb]; exact .abort
  | err h =>
    rename_i x
    have : openPlot files = .err := by unfold openPlot; rw [hb]
    rw [this]
    simp only [Res.bind_ok]
    rw [if_pos h.1]
    refine .err ⟨h.1, none, ?_⟩
    have hi := h.2
    exact ⟨hi.heap.perm (by simp only [BufM.own, Option.toList_none]; perms), hi.arr, hi.len, hi.ok, hi.ptr⟩
  | ok h =>
    rename_i x b
    obtain ⟨hd, hi⟩ := h
    obtain ⟨h1, h2, h3, h4⟩ := openBuf_inv hb
    have he : x.err = none := by
      have : x.data.err = false := by rw [hd]; exact h2
      cases hx : x.err with
      | none => rfl
      | some e =>
        have h2 : x.err.isSome = false := this
        rw [hx] at h2
        cases h2
    simp only [Res.bind_ok]
    rw [if_neg (by rw [he]; decide), openPlot_eq files hb]
    obtain ⟨⟨y, p⟩, e, hr1, hr2, hr3⟩ := seekM_ok (F := [x.mem.alloc.2] ++ F) (x := { x with mem := x.mem.alloc.1 })
      (hi.other (hi.heap.alloc.perm (by perms))) 0
    rw [e]
    simp only [Res.bind_ok]
    have hx : BufM.data { x with mem := x.mem.alloc.1 } = b := hd
    rw [hx] at hr1 hr2
    rw [seek_start hb] at hr1
    have hs := Sim.openHead (F := F) (files.flatten.length + files.length + 1) ⟨⟨y, none, some x.mem.alloc.2⟩, p⟩
      ⟨b, (seek b 0).2⟩ ⟨hr1, hr2, hr3, rfl, rfl⟩
    have hshut : Shut ⟨b, (seek b 0).2⟩ := ⟨by rcases h3 with h | h <;> (show b.ws ≤ 8; omega), fun h => by
      rw [show (S.mk b (seek b 0).2).b.err = b.err from rfl, h2] at h; cases h⟩
    generalize openHeadM (files.flatten.length + files.length + 1) ⟨⟨y, none, some x.mem.alloc.2⟩, p⟩ = r at hs
    generalize ht : openHead (files.flatten.length + files.length + 1) ⟨b, (seek b 0).2⟩ = t at hs
    cases hs with
    | ub => exact .ub
    | abort => exact .abort
    | err h => exact .err h
    | ok h =>
      rename_i s t a
      have hp := openHead_end hshut ht
      have hn : s.p = none := by
        have := h.p
        rw [hp] at this
        cases hq : s.p with
        | none => rfl
        | some q => rw [hq] at this; cases this
      have hinv := h.inv
      rw [hn] at hinv
      obtain ⟨c, n, d, l⟩ := a
      have : Plot.mk c n d l t.b = (s.h.opened (c, n, d, l)).plot := by
        unfold PlotM.plot Han.opened
        rw [h.b]
      show Opened F _ (.ok (Plot.mk c n d l t.b))
      rw [this]
      refine .ok ⟨?_, h.dp⟩ h.perr
      show Inv (s.h.perr.toList ++ _) _ _
      rw [h.perr]
      exact hinv

/-! ## `d3plot_close` -/

theorem mfCloseD_ok {m : Mem} {f : FileD} {L D : List Nat} (h : Heap m (f.own ++ L) D) :
    ∃ m', mfCloseD m f = .ok m' ∧ Heap m' L D := by
  obtain ⟨m1, e1, h1⟩ := Heap.free' (m := m) (b := f.path) (L := f.arr.toList ++ (f.hs.map (·.fp) ++ L)) (D := D)
    (h.perm (by simp only [FileD.own]; perms))
  obtain ⟨m2, e2, h2⟩ := Heap.freeAll (m := m1) (l := f.hs.map (·.fp)) (L := f.arr.toList ++ L) (D := D)
    (h1.perm (by perms))
  obtain ⟨m3, e3, h3⟩ := Heap.freeOpt (m := m2) (o := f.arr) (L := L) (D := D) h2
  unfold mfCloseD
  rw [e1]
  simp only [Res.bind_ok]
  rw [e2]
  simp only [Res.bind_ok]
  exact ⟨m3, e3, h3⟩

theorem closeFilesM_ok {fs : List FileD} : ∀ {m : Mem} {L D : List Nat}, Heap m (fs.flatMap FileD.own ++ L) D →
    ∃ m', closeFilesM m fs = .ok m' ∧ Heap m' L D := by
  induction fs with
  | nil => intro m L D h; exact ⟨m, rfl, h⟩
  | cons f fs ih =>
    intro m L D h
    obtain ⟨m1, e1, h1⟩ := mfCloseD_ok (m := m) (f := f) (L := fs.flatMap FileD.own ++ L) (D := D)
      (h.perm (by simp only [List.flatMap_cons]; perms))
    obtain ⟨m2, e2, h2⟩ := ih h1
    unfold closeFilesM
    rw [e1]
    exact ⟨m2, e2, h2⟩

theorem closeBufM_ok {F : List Nat} {x : BufM} {p : PtrM} (h : Inv F x p) :
    ∃ m', closeBufM x = .ok ⟨m', [], x.ws, none, none, none, []⟩ ∧ Heap m' F [] := by
  unfold closeBufM
  have hu : useFiles x = .ok () := by
    unfold useFiles
    split
    · rfl
    · exact h.useFiles
  rw [hu]
  simp only [Res.bind_ok]
  obtain ⟨m1, e1, h1⟩ := closeFilesM_ok (m := x.mem) (fs := x.fs) (L := x.arr.toList ++ (x.root.toList ++ (x.err.toList ++ F)))
    (D := []) (h.heap.perm (by simp only [BufM.own]; perms))
  rw [e1]
  simp only [Res.bind_ok]
  obtain ⟨m2, e2, h2⟩ := h1.freeOpt
  rw [e2]
  simp only [Res.bind_ok]
  obtain ⟨m3, e3, h3⟩ := Heap.freeOpt (m := m2) (o := x.err) (L := x.root.toList ++ F) (D := []) (h2.perm (by perms))
  rw [e3]
  simp only [Res.bind_ok]
  obtain ⟨m4, e4, h4⟩ := h3.freeOpt
  rw [e4]
  exact ⟨m4, rfl, h4⟩

theorem closePlotM_ok {F : List Nat} {h : Han} {p : PtrM} (hi : Inv (h.perr.toList ++ (h.dp.toList ++ F)) h.x p) :
    ∃ h', closePlotM h = .ok h' ∧ Heap h'.x.mem F h.dp.toList ∧ h'.dp = h.dp ∧ h'.perr = none ∧ h'.own = h.dp.toList ∧
      h'.x = ⟨h'.x.mem, [], h'.x.ws, none, none, none, []⟩ := by
  obtain ⟨m1, e1, h1⟩ := closeBufM_ok hi
  unfold closePlotM
  rw [e1]
  simp only [Res.bind_ok]
  have h2 : ∃ m2, m1.freeOpt h.dp = .ok m2 ∧ Heap m2 (h.perr.toList ++ F) h.dp.toList := by
    cases hd : h.dp with
    | none =>
      rw [hd] at h1
      exact ⟨m1, rfl, h1⟩
    | some b =>
      rw [hd] at h1
      obtain ⟨m2, e, h2⟩ := Heap.free (m := m1) (b := b) (L := h.perr.toList ++ F) (D := []) (h1.perm (by
        simp only [Option.toList_some]; perms))
      exact ⟨m2, e, h2⟩
  obtain ⟨m2, e2, h2⟩ := h2
  rw [e2]
  simp only [Res.bind_ok]
  obtain ⟨m3, e3, h3⟩ := h2.freeOpt
  rw [e3]
  exact ⟨_, rfl, h3, rfl, rfl, rfl, rfl⟩

/-- Closing a second time releases `data_pointers` again. -/
theorem closePlotM_twice {F : List Nat} {h : Han} {b : Nat} (hd : h.dp = some b) (hh : Heap h.x.mem F [b])
    (hx : h.x = ⟨h.x.mem, [], h.x.ws, none, none, none, []⟩) : closePlotM h = .ub := by
  unfold closePlotM
  have e : closeBufM h.x = .ok h.x := by
    rw [hx]
    rfl
  rw [e]
  simp only [Res.bind_ok]
  rw [hd]
  show (h.x.mem.free b >>= fun m => _) = _
  rw [hh.free_gone (by simp)]
  rfl

end Dyna.D3Mem
