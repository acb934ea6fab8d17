import Verif.Props.D3MemOpen
/-!
# C89: memory and file handles of a d3plot, reading
-/

namespace Dyna.D3Mem

open Dyna.KeyMem Dyna.BinoutMem Dyna.D3

/-! ## Calls -/

/-- A file without an error. -/
def Clean (F : List Nat) (p : PlotM) : Prop := Ready F p ∧ p.h.perr = none

/-- The blocks that have been given to the caller. -/
def blocks {β : Type} (bl : β → List Nat) (o : Option β) : List Nat := (o.map bl).getD []

/-- The two versions of a call agree: the same values, and the file has the same blocks as before. -/
structure CR {α β : Type} (F : List Nat) (bl : β → List Nat) (val : β → α) (r : PlotM × Option β) (t : Plot × Option α) :
    Prop where
  plot : r.1.plot = t.1
  ready : Ready (blocks bl r.2 ++ F) r.1
  val : r.2.map val = t.2
  err : r.1.h.perr.isSome = r.2.isNone

/-- Nothing is given to the caller but a value. -/
def noBlk {α : Type} (_ : α) : List Nat := []

theorem Ready.perm {F F' : List Nat} {p : PlotM} (h : Ready F p) (hp : F.Perm F') : Ready F' p :=
  ⟨h.1.perm (by
    have := List.perm_iff_count.1 hp
    refine List.perm_iff_count.2 (fun a => ?_)
    have := this a
    simp only [List.count_append] at *
    omega), h.2⟩

theorem Ready.withMem {F F' : List Nat} {p : PlotM} {m : Mem} (h : Ready F p)
    (hm : Heap m (p.h.x.own ++ (p.h.perr.toList ++ (p.h.dp.toList ++ F'))) []) : Ready F' (p.withMem m) :=
  ⟨h.1.other hm, h.2⟩

theorem Ready.heap {F : List Nat} {p : PlotM} (h : Ready F p) :
    Heap p.mem (p.h.x.own ++ (p.h.perr.toList ++ (p.h.dp.toList ++ F))) [] := h.1.heap

theorem Ready.alloc {F : List Nat} {p : PlotM} (h : Ready F p) : Ready (p.mem.alloc.2 :: F) (p.withMem p.mem.alloc.1) :=
  h.withMem (h.heap.alloc.perm (by perms))

theorem Clean.withMem {F F' : List Nat} {p : PlotM} {m : Mem} (h : Clean F p)
    (hm : Heap m (p.h.x.own ++ (p.h.perr.toList ++ (p.h.dp.toList ++ F'))) []) : Clean F' (p.withMem m) :=
  ⟨h.1.withMem hm, h.2⟩

theorem Clean.alloc {F : List Nat} {p : PlotM} (h : Clean F p) : Clean (p.mem.alloc.2 :: F) (p.withMem p.mem.alloc.1) :=
  ⟨h.1.alloc, h.2⟩

theorem useDp {F : List Nat} {p : PlotM} (h : Ready F p) : useArr p.mem p.h.dp = .ok () :=
  useArr_ok h.heap h.2 (fun b hb => by
    simp only [Option.mem_def] at hb
    simp [hb])

theorem clearM_ok {F : List Nat} {p : PlotM} (h : Ready F p) :
    ∃ p', clearM p = .ok p' ∧ p'.plot = p.plot ∧ Clean F p' := by
  obtain ⟨h', e, h1, h2, h3, h4⟩ := clearPErr_ok h.1
  unfold clearM
  rw [e]
  refine ⟨_, rfl, ?_, ⟨?_, ?_⟩, h1⟩
  · unfold PlotM.plot
    show Plot.mk _ _ _ _ h'.x.data = _
    rw [h3]
  · show Inv (h'.perr.toList ++ (h'.dp.toList ++ F)) h'.x none
    rw [h1]
    exact h4
  · show h'.dp.isSome = true
    rw [h2]
    exact h.2

theorem errM_ok {α : Type} {F : List Nat} {p : PlotM} (h : Ready F p) :
    ∃ p', (errM p : Res (PlotM × Option α)) = .ok (p', none) ∧ p'.plot = p.plot ∧ Ready F p' ∧ p'.h.perr.isSome = true := by
  obtain ⟨h', e, h1, h2, h3, h4⟩ := setPErr_ok h.1
  unfold errM
  rw [e]
  refine ⟨_, rfl, ?_, ⟨h4, ?_⟩, h1⟩
  · unfold PlotM.plot
    show Plot.mk _ _ _ _ h'.x.data = _
    rw [h3]
  · show h'.dp.isSome = true
    rw [h2]
    exact h.2

/-- A call that fails. -/
theorem errM_rel {α β : Type} {F : List Nat} {bl : β → List Nat} {val : β → α} {p : PlotM} (h : Ready F p) :
    Rel (CR F bl val) (errM p) (.ok (p.plot, none)) := by
  obtain ⟨p', e, h1, h2, h3⟩ := errM_ok (α := β) h
  rw [e]
  exact .ok ⟨h1, h2, rfl, h3⟩

theorem readAtM_ok {F : List Nat} {p : PlotM} (h : Clean F p) (n word : Nat) :
    Rel (CR F noBlk id) (readAtM p n word) (readAt p.plot n word) := by
  unfold readAtM readAt
  rw [useDp h.1]
  simp only [Res.bind_ok]
  have hr := readWordsAtM_ok h.1.1 (n % u64) (word % u64)
  rw [show p.plot.buf = p.h.x.data from rfl]
  generalize readWordsAtM p.h.x (n % u64) (word % u64) = x at hr
  generalize readWordsAt p.h.x.data (n % u64) (word % u64) = y at hr
  cases hr with
  | ub => exact .ub
  | err => exact .err
  | abort => exact .abort
  | ok hr =>
    rename_i a t
    obtain ⟨x, q, bs⟩ := a
    obtain ⟨b, q', bs'⟩ := t
    obtain ⟨h1, h2, h3, h4⟩ := hr
    dsimp only at h1 h2 h3 h4
    subst h1 h2 h3
    simp only [Res.bind_ok]
    have hc := closeM_rel h4
    generalize closeM x q = c at hc
    generalize close (dataP q) = d at hc
    cases hc with
    | ub => exact .ub
    | err => exact .err
    | abort => exact .abort
    | ok hc =>
      rename_i y q2
      obtain ⟨hd, hi⟩ := hc
      simp only [Res.bind_ok]
      have he : y.err.isSome = x.data.err := congrArg Buf.err hd
      have hw : y.ws = x.data.ws := congrArg Buf.ws hd
      rw [he, hw]
      by_cases hx : x.data.err = true
      · rw [if_pos hx, if_pos hx]
        unfold errBufM
        have hR : Ready F { p with h := { p.h with x := y } } := ⟨hi, h.1.2⟩
        have hu : useArr y.mem y.err = .ok () := useArr_ok hi.heap (by rw [he]; exact hx) (fun b hb => by
          simp only [Option.mem_def] at hb
          simp [BufM.own, hb])
        change Rel _ (useArr y.mem y.err >>= fun _ => errM { p with h := { p.h with x := y } }) _
        rw [hu]
        simp only [Res.bind_ok]
        obtain ⟨p', e, e1, e2, e3⟩ := errM_ok (α := List Nat) hR
        rw [e]
        refine .ok ⟨?_, e2, rfl, e3⟩
        rw [e1]
        unfold PlotM.plot
        show Plot.mk _ _ _ _ y.data = _
        rw [hd]
      · rw [if_neg hx, if_neg hx]
        refine .ok ⟨?_, ⟨hi, h.1.2⟩, rfl, ?_⟩
        · unfold PlotM.plot
          show Plot.mk _ _ _ _ y.data = _
          rw [hd]
        · show p.h.perr.isSome = _
          rw [h.2]
          rfl

theorem withMem_plot (p : PlotM) (m : Mem) : (p.withMem m).plot = p.plot := rfl

/-- The result `res` and a temporary array are among the blocks of others while reading. -/
theorem finishM_ok {α β : Type} {F : List Nat} {val : β → α} {res : Nat} {temp : Option Nat} {x : Res (PlotM × Option β)}
    {y : Res (Plot × Option α)} (h : Rel (CR (temp.toList ++ (res :: F)) noBlk val) x y) :
    Rel (CR F (fun r : List Nat × β => r.1) (fun r => val r.2)) (x >>= finishM res temp) y := by
  cases h with
  | ub => exact .ub
  | err => exact .err
  | abort => exact .abort
  | ok h =>
    rename_i r t
    obtain ⟨p, o⟩ := r
    obtain ⟨h1, h2, h3, h4⟩ := h
    simp only [Res.bind_ok]
    unfold finishM
    have hh : Heap p.mem (temp.toList ++ (res :: (p.h.x.own ++ (p.h.perr.toList ++ (p.h.dp.toList ++ F))))) [] :=
      h2.heap.perm (by
        have : blocks (noBlk : β → List Nat) o = [] := by cases o <;> rfl
        simp only [this]
        perms)
    obtain ⟨m1, e1, g1⟩ := hh.freeOpt
    show Rel _ (p.mem.freeOpt temp >>= _) _
    rw [e1]
    simp only [Res.bind_ok]
    cases o with
    | none =>
      obtain ⟨m2, e2, g2⟩ := g1.free'
      dsimp only
      rw [e2]
      exact .ok ⟨h1, h2.withMem g2, h3, h4⟩
    | some a =>
      refine .ok ⟨h1, ?_, ?_, h4⟩
      · exact h2.withMem (g1.perm (by simp only [blocks, Option.map_some, Option.getD_some]; perms))
      · rw [← h3]
        rfl

theorem readBlockM_ok {F : List Nat} {p : PlotM} (h : Clean F p) (temp : Bool) (n word : Nat) :
    Rel (CR F (fun r : List Nat × List Nat => r.1) (fun r => r.2)) (readBlockM p temp n word) (readAt p.plot n word) := by
  unfold readBlockM allocIf
  dsimp only
  cases temp with
  | true =>
    refine finishM_ok (val := id) (temp := some p.mem.alloc.1.alloc.2) (res := p.mem.alloc.2) ?_
    exact readAtM_ok (p := p.withMem p.mem.alloc.1.alloc.1)
      (h.withMem ((h.1.heap.alloc.alloc).perm (by simp only [Option.toList_some]; perms))) n word
  | false =>
    refine finishM_ok (val := id) (temp := none) (res := p.mem.alloc.2) ?_
    exact readAtM_ok (p := p.withMem p.mem.alloc.1)
      (h.withMem ((h.1.heap.alloc).perm (by simp only [Option.toList_none]; perms))) n word

theorem convertM_ok {α : Type} {F : List Nat} {x : Res (OutM α)} {y : Res (Plot × Option α)}
    (h : Rel (CR F (fun r : List Nat × α => r.1) (fun r => r.2)) x y) :
    Rel (CR F (fun r : List Nat × α => r.1) (fun r => r.2)) (x >>= convertM) y := by
  cases h with
  | ub => exact .ub
  | err => exact .err
  | abort => exact .abort
  | ok h =>
    rename_i r t
    obtain ⟨p, o⟩ := r
    obtain ⟨h1, h2, h3, h4⟩ := h
    simp only [Res.bind_ok]
    unfold convertM
    cases o with
    | none => exact .ok ⟨h1, h2, h3, h4⟩
    | some a =>
      obtain ⟨bs, a⟩ := a
      have hh : Heap p.mem.alloc.1 (bs ++ (p.mem.alloc.2 :: (p.h.x.own ++ (p.h.perr.toList ++ (p.h.dp.toList ++ F))))) [] :=
        h2.heap.alloc.perm (by simp only [blocks, Option.map_some, Option.getD_some]; perms)
      obtain ⟨m1, e1, g1⟩ := hh.freeAll
      dsimp only
      rw [e1]
      refine .ok ⟨h1, ?_, h3, h4⟩
      exact h2.withMem (g1.perm (by simp only [blocks, Option.map_some, Option.getD_some]; perms))

/-! ## Time and nodes -/

theorem readTimeM_ok {F : List Nat} {p : PlotM} (h : Ready F p) (state : Nat) :
    Rel (CR F noBlk id) (readTimeM p state) (readTime p.plot state) := by
  obtain ⟨p', e, hp, hc⟩ := clearM_ok h
  unfold readTimeM readTime
  rw [e, ← hp]
  simp only [Res.bind_ok]
  show Rel _ _ (match p'.states[state]? with
    | none => .ok (p'.plot, none)
    | some s => readAt p'.plot 1 (s + p'.ptrs.stTime))
  cases p'.states[state]? with
  | none => exact errM_rel hc.1
  | some s => exact readAtM_ok hc _ _

theorem nodeSameM_ok {F : List Nat} {p : PlotM} (h : Ready F p) (ptr state : Nat) :
    Rel (CR F (fun r : List Nat × List Nat => r.1) (fun r => r.2)) (nodeSameM p ptr state)
      (readNodeData p.plot ptr state) := by
  obtain ⟨p', e, hp, hc⟩ := clearM_ok h
  unfold nodeSameM readNodeData
  rw [e, ← hp]
  simp only [Res.bind_ok]
  by_cases h0 : ptr = 0
  · rw [if_pos h0, if_pos h0]
    exact errM_rel hc.1
  · rw [if_neg h0, if_neg h0]
    show Rel _ _ (match p'.states[state]? with
      | none => .ok (p'.plot, none)
      | some s => readAt p'.plot (p'.cda.raw.numnp * 3) (s + ptr))
    cases p'.states[state]? with
    | none => exact errM_rel hc.1
    | some s => exact readBlockM_ok hc _ _ _

theorem readNodeDataM_ok {F : List Nat} {p : PlotM} (h : Ready F p) (same : Bool) (ptr state : Nat) :
    Rel (CR F (fun r : List Nat × List Nat => r.1) (fun r => r.2)) (readNodeDataM p same ptr state)
      (readNodeData p.plot ptr state) := by
  unfold readNodeDataM
  cases same with
  | true => exact nodeSameM_ok h _ _
  | false =>
    rw [if_neg (by decide)]
    obtain ⟨p', e, hp, hc⟩ := clearM_ok h
    rw [e, ← hp]
    simp only [Res.bind_ok]
    by_cases h0 : ptr = 0
    · rw [if_pos h0]
      unfold readNodeData
      rw [if_pos h0]
      exact errM_rel hc.1
    · rw [if_neg h0]
      exact convertM_ok (nodeSameM_ok hc.1 _ _)

theorem readEachM_ok {F : List Nat} (n ptr : Nat) : ∀ (l : List Nat) {p : PlotM}, Clean F p →
    Rel (CR F noBlk id) (readEachM n ptr l p) (readEach n ptr l p.plot) := by
  intro l
  induction l with
  | nil =>
    intro p h
    exact .ok ⟨rfl, h.1, rfl, by rw [h.2]; rfl⟩
  | cons s rest ih =>
    intro p h
    unfold readEachM readEach
    have hr := readAtM_ok h n (s + ptr)
    generalize readAtM p n (s + ptr) = x at hr
    generalize readAt p.plot n (s + ptr) = y at hr
    cases hr with
    | ub => exact .ub
    | err => exact .err
    | abort => exact .abort
    | ok hr =>
      rename_i r t
      obtain ⟨p1, o⟩ := r
      obtain ⟨q1, o'⟩ := t
      obtain ⟨h1, h2, h3, h4⟩ := hr
      dsimp only at h1 h2 h3 h4
      subst h1 h3
      simp only [Res.bind_ok]
      cases o with
      | none => exact .ok ⟨rfl, h2, rfl, h4⟩
      | some d =>
        have hc : Clean F p1 := ⟨h2, by
          cases hp : p1.h.perr with
          | none => rfl
          | some b => rw [hp] at h4; cases h4⟩
        have hi := ih hc
        show Rel _ (readEachM n ptr rest p1 >>= _) (match readEach n ptr rest p1.plot with
          | .ok (p'', some ds) => .ok (p'', some (d ++ ds))
          | .ok (p'', none) => .ok (p'', none)
          | .err => .err
          | .ub => .ub
          | .abort => .abort)
        generalize readEachM n ptr rest p1 = x at hi
        generalize readEach n ptr rest p1.plot = y at hi
        cases hi with
        | ub => exact .ub
        | err => exact .err
        | abort => exact .abort
        | ok hi =>
          rename_i r t
          obtain ⟨p2, o⟩ := r
          obtain ⟨q2, o'⟩ := t
          obtain ⟨g1, g2, g3, g4⟩ := hi
          dsimp only at g1 g2 g3 g4
          subst g1 g3
          simp only [Res.bind_ok]
          cases o with
          | none => exact .ok ⟨rfl, g2, rfl, g4⟩
          | some ds => exact .ok ⟨rfl, g2, rfl, g4⟩

theorem allSameM_ok {F : List Nat} {p : PlotM} (h : Ready F p) (n ptr : Nat) :
    Rel (CR F (fun r : List Nat × List Nat => r.1) (fun r => r.2)) (allSameM p n ptr)
      (readEach n ptr p.states p.plot) := by
  obtain ⟨p', e, hp, hc⟩ := clearM_ok h
  unfold allSameM
  rw [show p.states = p'.states from (congrArg Plot.states hp).symm, e, ← hp]
  simp only [Res.bind_ok]
  exact finishM_ok (val := id) (temp := none) (readEachM_ok n ptr p'.states hc.alloc)

theorem readAllNodeDataM_ok {F : List Nat} {p : PlotM} (h : Ready F p) (same : Bool) (ptr : Nat) :
    Rel (CR F (fun r : List Nat × List Nat => r.1) (fun r => r.2)) (readAllNodeDataM p same ptr)
      (readAllNodeData p.plot ptr) := by
  unfold readAllNodeDataM readAllNodeData
  cases same with
  | true => exact allSameM_ok h _ _
  | false => exact convertM_ok (allSameM_ok h _ _)

theorem readAllTimeM_ok {F : List Nat} {p : PlotM} (h : Ready F p) :
    Rel (CR F (fun r : List Nat × List Nat => r.1) (fun r => r.2)) (readAllTimeM p) (readAllTime p.plot) :=
  allSameM_ok h _ _

/-! ## Ids, titles, elements -/

theorem none_rel {α : Type} {F : List Nat} {p : PlotM} (h : Clean F p) :
    Rel (CR F (fun r : List Nat × List α => r.1) (fun r => r.2)) (.ok (p, some ([], []))) (.ok (p.plot, some [])) :=
  .ok ⟨rfl, h.1, rfl, by rw [h.2]; rfl⟩

theorem readIdsM_ok {F : List Nat} {p : PlotM} (h : Ready F p) (ptr count : Nat) :
    Rel (CR F (fun r : List Nat × List Nat => r.1) (fun r => r.2)) (readIdsM p ptr count) (readIds p.plot ptr count) := by
  obtain ⟨p', e, hp, hc⟩ := clearM_ok h
  unfold readIdsM readIds
  rw [e, ← hp]
  simp only [Res.bind_ok]
  by_cases h0 : count = 0
  · rw [if_pos h0, if_pos h0]
    exact none_rel hc
  · rw [if_neg h0, if_neg h0]
    exact readBlockM_ok hc _ _ _

theorem readTitleM_ok {F : List Nat} {p : PlotM} (h : Ready F p) :
    Rel (CR F (fun r : List Nat × List Nat => r.1) (fun r => r.2)) (readTitleM p) (readTitle p.plot) := by
  obtain ⟨p', e, hp, hc⟩ := clearM_ok h
  unfold readTitleM readTitle
  rw [e, ← hp]
  exact readBlockM_ok hc _ _ _

theorem readRunTimeM_ok {F : List Nat} {p : PlotM} (h : Ready F p) :
    Rel (CR F noBlk id) (readRunTimeM p) (readRunTime p.plot) := by
  obtain ⟨p', e, hp, hc⟩ := clearM_ok h
  unfold readRunTimeM readRunTime
  rw [e, ← hp]
  exact readAtM_ok hc _ _

theorem readElementsTableM_ok {α : Type} {F : List Nat} {p : PlotM} (h : Ready F p) (c : Bool) (n word : Nat)
    (f : List Nat → List α) :
    Rel (CR F (fun r : List Nat × List α => r.1) (fun r => r.2)) (readElementsTableM p c n word f)
      (if c = true then .ok (p.plot, some []) else (readAt p.plot n word).map f) := by
  obtain ⟨p', e, hp, hc⟩ := clearM_ok h
  unfold readElementsTableM
  rw [e, ← hp]
  simp only [Res.bind_ok]
  cases c with
  | true => exact none_rel hc
  | false =>
    rw [if_neg (by decide), if_neg (by decide)]
    have hr := readBlockM_ok hc (p'.h.x.ws == 4) n word
    generalize readBlockM p' (p'.h.x.ws == 4) n word = x at hr
    generalize readAt p'.plot n word = y at hr
    cases hr with
    | ub => exact .ub
    | err => exact .err
    | abort => exact .abort
    | ok hr =>
      rename_i r t
      obtain ⟨p2, o⟩ := r
      obtain ⟨q2, o'⟩ := t
      obtain ⟨g1, g2, g3, g4⟩ := hr
      dsimp only at g1 g2 g3 g4
      subst g1 g3
      simp only [Res.bind_ok]
      cases o with
      | none => exact .ok ⟨rfl, g2, rfl, g4⟩
      | some ds => exact .ok ⟨rfl, g2, rfl, g4⟩

theorem readSolidElementsM_ok {F : List Nat} {p : PlotM} (h : Ready F p) :
    Rel (CR F (fun r : List Nat × List Con => r.1) (fun r => r.2)) (readSolidElementsM p) (readSolidElements p.plot) := by
  have := readElementsTableM_ok h (decide (p.cda.raw.nel8 ≤ 0)) (9 * toU64 p.cda.raw.nel8) p.ptrs.el8Connect
    (cons p.h.x.ws 8 (toU64 p.cda.raw.nel8))
  simp only [decide_eq_true_eq] at this
  exact this

theorem readThickElementsM_ok {F : List Nat} {p : PlotM} (h : Ready F p) :
    Rel (CR F (fun r : List Nat × List Con => r.1) (fun r => r.2)) (readThickElementsM p) (readThickElements p.plot) := by
  have := readElementsTableM_ok h (p.cda.raw.nelt == 0) (9 * p.cda.raw.nelt) p.ptrs.eltConnect
    (cons p.h.x.ws 8 p.cda.raw.nelt)
  simp only [beq_iff_eq] at this
  exact this

theorem readBeamElementsM_ok {F : List Nat} {p : PlotM} (h : Ready F p) :
    Rel (CR F (fun r : List Nat × List Con => r.1) (fun r => r.2)) (readBeamElementsM p) (readBeamElements p.plot) := by
  have := readElementsTableM_ok h (p.cda.raw.nel2 == 0) (6 * p.cda.raw.nel2) p.ptrs.el2Connect
    (beamCons p.h.x.ws p.cda.raw.nel2)
  simp only [beq_iff_eq] at this
  exact this

theorem readShellElementsM_ok {F : List Nat} {p : PlotM} (h : Ready F p) :
    Rel (CR F (fun r : List Nat × List Con => r.1) (fun r => r.2)) (readShellElementsM p) (readShellElements p.plot) := by
  have := readElementsTableM_ok h (p.cda.raw.nel4 == 0) (5 * p.cda.raw.nel4) p.ptrs.el4Connect
    (cons p.h.x.ws 4 p.cda.raw.nel4)
  simp only [beq_iff_eq] at this
  exact this

/-! ## Ids and titles of parts -/

/-- The pointer and the values of the ids. -/
def BPL (F : List Nat) (r : BufM × PtrM × List Nat) (t : Buf × Ptr × List Nat) : Prop :=
  r.1.data = t.1 ∧ dataP r.2.1 = t.2.1 ∧ r.2.2 = t.2.2 ∧ Inv F r.1 r.2.1

theorem partIdLoopM_ok {F : List Nat} : ∀ (n : Nat) {x : BufM} {q : PtrM} (acc : List Nat), Inv F x q →
    Rel (BPL F) (partIdLoopM n x q acc) (partIdLoop n x.data (dataP q) acc) := by
  intro n
  induction n with
  | zero => intro x q acc h; exact .ok ⟨rfl, rfl, rfl, h⟩
  | succ n ih =>
    intro x q acc h
    unfold partIdLoopM partIdLoop
    have hr := readWordsM_ok h 1
    generalize readWordsM x q 1 = a at hr
    generalize readWords x.data (dataP q) 1 = b at hr
    cases hr with
    | ub => exact .ub
    | err => exact .err
    | abort => exact .abort
    | ok hr =>
      rename_i a t
      obtain ⟨x1, q1, bs⟩ := a
      obtain ⟨b1, q1', bs'⟩ := t
      obtain ⟨h1, h2, h3, h4⟩ := hr
      dsimp only at h1 h2 h3 h4
      subst h1 h2 h3
      simp only [Res.bind_ok]
      have hs := skipBytesM_ok h4 72
      generalize skipBytesM x1 q1 72 = a at hs
      generalize skipBytes x1.data (dataP q1) 72 = b at hs
      cases hs with
      | ub => exact .ub
      | err => exact .err
      | abort => exact .abort
      | ok hs =>
        rename_i a t
        obtain ⟨x2, q2⟩ := a
        obtain ⟨b2, q2'⟩ := t
        obtain ⟨h1, h2, h4⟩ := hs
        dsimp only at h1 h2 h4
        subst h1 h2
        simp only [Res.bind_ok]
        exact ih _ h4

theorem setX_ready {F F' : List Nat} {p : PlotM} {y : BufM} (h : Clean F p) (hi : Inv (p.h.perr.toList ++ (p.h.dp.toList ++ F')) y none) :
    Ready F' { p with h := { p.h with x := y } } := ⟨hi, h.1.2⟩

theorem headerPartIdsM_ok {F : List Nat} {p : PlotM} (h : Clean F p) (n : Nat) (h0 : p.ptrs.partIds = 0)
    (h1 : ¬ p.ptrs.partTitles = 0) (hn : p.cda.raw.nmmat = n + 1) :
    Rel (CR F (fun r : List Nat × List Nat => r.1) (fun r => r.2)) (headerPartIdsM p n) (readPartIds p.plot) := by
  unfold headerPartIdsM readPartIds
  rw [show p.plot.ptrs = p.ptrs from rfl, if_pos h0, if_neg h1, show p.plot.cda.raw.nmmat = n + 1 from hn, useDp h.1]
  simp only [Res.bind_ok]
  have hh := h.1.heap.alloc
  have hi : Inv (p.h.perr.toList ++ (p.h.dp.toList ++ (p.mem.alloc.2 :: F))) { p.h.x with mem := p.mem.alloc.1 } none :=
    h.1.1.other (hh.perm (by perms))
  have hr := readWordsAtM_ok hi 1 p.ptrs.partTitles
  rw [show p.plot.buf = BufM.data { p.h.x with mem := p.mem.alloc.1 } from rfl]
  generalize readWordsAtM { p.h.x with mem := p.mem.alloc.1 } 1 p.ptrs.partTitles = a at hr
  generalize readWordsAt (BufM.data { p.h.x with mem := p.mem.alloc.1 }) 1 p.ptrs.partTitles = b at hr
  cases hr with
  | ub => exact .ub
  | err => exact .err
  | abort => exact .abort
  | ok hr =>
    rename_i a t
    obtain ⟨x1, q1, bs⟩ := a
    obtain ⟨b1, q1', bs'⟩ := t
    obtain ⟨h1, h2, h3, h4⟩ := hr
    dsimp only at h1 h2 h3 h4
    subst h1 h2 h3
    simp only [Res.bind_ok]
    have hs := skipBytesM_ok h4 72
    generalize skipBytesM x1 q1 72 = a at hs
    generalize skipBytes x1.data (dataP q1) 72 = b at hs
    cases hs with
    | ub => exact .ub
    | err => exact .err
    | abort => exact .abort
    | ok hs =>
      rename_i a t
      obtain ⟨x2, q2⟩ := a
      obtain ⟨b2, q2'⟩ := t
      obtain ⟨h1, h2, h4⟩ := hs
      dsimp only at h1 h2 h4
      subst h1 h2
      simp only [Res.bind_ok]
      have hl := partIdLoopM_ok n [D3.leNat bs] h4
      generalize partIdLoopM n x2 q2 [D3.leNat bs] = a at hl
      generalize partIdLoop n x2.data (dataP q2) [D3.leNat bs] = b at hl
      cases hl with
      | ub => exact .ub
      | err => exact .err
      | abort => exact .abort
      | ok hl =>
        rename_i a t
        obtain ⟨x3, q3, ids⟩ := a
        obtain ⟨b3, q3', ids'⟩ := t
        obtain ⟨h1, h2, h3, h4⟩ := hl
        dsimp only at h1 h2 h3 h4
        subst h1 h2 h3
        simp only [Res.bind_ok]
        have hc := closeM_rel h4
        generalize closeM x3 q3 = a at hc
        generalize close (dataP q3) = b at hc
        cases hc with
        | ub => exact .ub
        | err => exact .err
        | abort => exact .abort
        | ok hc =>
          rename_i y q4
          obtain ⟨hd, hi⟩ := hc
          simp only [Res.bind_ok]
          refine .ok ⟨?_, setX_ready h hi, rfl, by show p.h.perr.isSome = _; rw [h.2]; rfl⟩
          unfold PlotM.plot
          show Plot.mk _ _ _ _ y.data = _
          rw [hd]

theorem readPartIdsM_ok {F : List Nat} {p : PlotM} (h : Ready F p) :
    Rel (CR F (fun r : List Nat × List Nat => r.1) (fun r => r.2)) (readPartIdsM p) (readPartIds p.plot) := by
  obtain ⟨p', e, hp, hc⟩ := clearM_ok h
  unfold readPartIdsM
  rw [e, ← hp]
  simp only [Res.bind_ok]
  by_cases h0 : p'.ptrs.partIds = 0
  · rw [if_pos h0]
    by_cases h1 : p'.ptrs.partTitles = 0
    · rw [if_pos h1]
      unfold readPartIds
      rw [show p'.plot.ptrs = p'.ptrs from rfl, if_pos h0, if_pos h1]
      exact errM_rel hc.1
    · rw [if_neg h1]
      cases hn : p'.cda.raw.nmmat with
      | zero =>
        unfold readPartIds
        rw [show p'.plot.ptrs = p'.ptrs from rfl, if_pos h0, if_neg h1, show p'.plot.cda.raw.nmmat = 0 from hn]
        exact .ub
      | succ n => exact headerPartIdsM_ok hc n h0 h1 hn
  · rw [if_neg h0]
    unfold readPartIds
    rw [show p'.plot.ptrs = p'.ptrs from rfl, if_neg h0]
    exact readIdsM_ok hc.1 _ _

/-- The titles so far; after an error they have been released. -/
structure TR (F : List Nat) (p0 : PlotM) (res : Nat) (r : PlotM × PtrM × Option (List Nat × List Bytes))
    (t : Buf × Ptr × Option (List Bytes)) : Prop where
  plot : r.1.plot = { p0.plot with buf := t.1 }
  ptr : dataP r.2.1 = t.2.1
  dp : r.1.h.dp.isSome = true
  inv : Inv (r.1.h.perr.toList ++ (r.1.h.dp.toList ++ ((match r.2.2 with | none => [] | some x => res :: x.1) ++ F)))
    r.1.h.x r.2.1
  val : r.2.2.map (·.2) = t.2.2
  err : r.1.h.perr.isSome = r.2.2.isNone
  none_ : r.2.2 = none → r.2.1 = none

theorem titleDoneM_ok {F : List Nat} {p0 p : PlotM} {q : PtrM} {res : Nat} {bs : List Nat} {bytes : Bytes} {acc : List Bytes}
    (hp : p.plot = { p0.plot with buf := p.h.x.data }) (hdp : p.h.dp.isSome = true) (he : p.h.perr = none)
    (h : Inv (p.h.perr.toList ++ (p.h.dp.toList ++ ((res :: bs) ++ F))) p.h.x q) :
    Rel (TR F p0 res) (titleDoneM p q res bs bytes acc) (titleDone p.h.x.data (dataP q) bytes acc) := by
  unfold titleDoneM titleDone
  rw [show p.h.x.err.isSome = p.h.x.data.err from rfl]
  by_cases hx : p.h.x.data.err = true
  · rw [if_pos hx, if_pos hx]
    have hc := closeM_rel h
    generalize closeM p.h.x q = a at hc
    generalize close (dataP q) = b at hc
    cases hc with
    | ub => exact .ub
    | err => exact .err
    | abort => exact .abort
    | ok hc =>
      rename_i y q4
      obtain ⟨hd, hi⟩ := hc
      simp only [Res.bind_ok]
      have hu : useArr y.mem y.err = .ok () := useArr_ok hi.heap (by
          rw [show y.err.isSome = y.data.err from rfl, hd]; exact hx) (fun b hb => by
        simp only [Option.mem_def] at hb
        simp [BufM.own, hb])
      rw [hu]
      simp only [Res.bind_ok]
      obtain ⟨h', e, e1, e2, e3, e4⟩ := setPErr_ok (h := { p.h with x := y }) (F := (res :: bs) ++ F) (p := none) hi
      rw [e]
      simp only [Res.bind_ok]
      obtain ⟨m1, f1, g1⟩ := Heap.freeAll (m := h'.x.mem) (l := bs)
        (L := res :: (h'.x.own ++ (h'.perr.toList ++ (h'.dp.toList ++ F)))) (D := []) (e4.heap.perm (by perms))
      rw [f1]
      simp only [Res.bind_ok]
      obtain ⟨m2, f2, g2⟩ := g1.free'
      rw [f2]
      refine .ok ⟨?_, rfl, ?_, ?_, rfl, e1, fun _ => rfl⟩
      · show Plot.mk p.cda p.numrbs p.ptrs p.states h'.x.data = _
        rw [e3]
        show Plot.mk p.cda p.numrbs p.ptrs p.states y.data = _
        rw [hd]
        exact hp
      · show h'.dp.isSome = true
        rw [e2]
        exact hdp
      · exact e4.other g2
  · rw [if_neg hx, if_neg hx]
    refine .ok ⟨hp, rfl, hdp, h, rfl, ?_, ?_⟩
    · rw [he]
      rfl
    · intro h; cases h

theorem TR.self {F : List Nat} {p0 : PlotM} {res : Nat} {r : PlotM × PtrM × Option (List Nat × List Bytes)}
    {t : Buf × Ptr × Option (List Bytes)} (h : TR F p0 res r t) : r.1.h.x.data = t.1 := congrArg Plot.buf h.plot

theorem titleLoopM_ok {F : List Nat} {p0 : PlotM} {res : Nat} : ∀ (n : Nat) {p : PlotM} {q : PtrM} {bs : List Nat}
    {acc : List Bytes}, p.plot = { p0.plot with buf := p.h.x.data } → p.h.dp.isSome = true → p.h.perr = none →
    Inv (p.h.perr.toList ++ (p.h.dp.toList ++ ((res :: bs) ++ F))) p.h.x q →
    Rel (TR F p0 res) (titleLoopM res n p q bs acc) (titleLoop n p.h.x.data (dataP q) acc) := by
  intro n
  induction n with
  | zero =>
    intro p q bs acc hp hdp he h
    exact .ok ⟨hp, rfl, hdp, h, rfl, by rw [he]; rfl, fun h => by cases h⟩
  | succ n ih =>
    intro p q bs acc hp hdp he h
    unfold titleLoopM titleLoop
    have hh := h.heap.alloc
    have hi : Inv (p.h.perr.toList ++ (p.h.dp.toList ++ ((res :: (bs ++ [p.mem.alloc.2])) ++ F)))
        { p.h.x with mem := p.mem.alloc.1 } q := h.other (hh.perm (by
          show (p.mem.alloc.2 :: _).Perm _
          perms))
    have hs := skipWordsM_ok hi 1
    rw [show p.h.x.data = BufM.data { p.h.x with mem := p.mem.alloc.1 } from rfl]
    generalize skipWordsM { p.h.x with mem := p.mem.alloc.1 } q 1 = a at hs
    generalize skipWords (BufM.data { p.h.x with mem := p.mem.alloc.1 }) (dataP q) 1 = b at hs
    cases hs with
    | ub => exact .ub
    | err => exact .err
    | abort => exact .abort
    | ok hs =>
      rename_i a t
      obtain ⟨x2, q2⟩ := a
      obtain ⟨b2, q2'⟩ := t
      obtain ⟨h1, h2, h4⟩ := hs
      dsimp only at h1 h2 h4
      subst h1 h2
      simp only [Res.bind_ok]
      have hr := readWordsM_ok h4 (titleWords x2.ws)
      rw [show titleWords x2.data.ws = titleWords x2.ws from rfl]
      generalize readWordsM x2 q2 (titleWords x2.ws) = a at hr
      generalize readWords x2.data (dataP q2) (titleWords x2.ws) = b at hr
      cases hr with
      | ub => exact .ub
      | err => exact .err
      | abort => exact .abort
      | ok hr =>
        rename_i a t
        obtain ⟨x1, q1, bytes⟩ := a
        obtain ⟨b1, q1', bytes'⟩ := t
        obtain ⟨h1, h2, h3, h4⟩ := hr
        dsimp only at h1 h2 h3 h4
        subst h1 h2 h3
        simp only [Res.bind_ok]
        have hp' : ∀ y : BufM, (PlotM.mk { p.h with x := y } p.cda p.numrbs p.ptrs p.states).plot =
            { p0.plot with buf := y.data } := by
          intro y
          have e1 := congrArg Plot.cda hp
          have e2 := congrArg Plot.numrbs hp
          have e3 := congrArg Plot.ptrs hp
          have e4 := congrArg Plot.states hp
          simp only [PlotM.plot] at e1 e2 e3 e4 ⊢
          rw [e1, e2, e3, e4]
        have hd := titleDoneM_ok (F := F) (p0 := p0) (res := res) (bs := bs ++ [p.mem.alloc.2]) (bytes := bytes) (acc := acc)
          (p := { p with h := { p.h with x := x1 } }) (q := q1) (hp' x1) hdp he h4
        show Rel _ (titleDoneM { p with h := { p.h with x := x1 } } q1 res (bs ++ [p.mem.alloc.2]) bytes acc >>= _)
          (match titleDone x1.data (dataP q1) bytes acc with
          | .ok (b, q, some acc) => titleLoop n b q acc
          | .ok (b, q, none) => .ok (b, q, none)
          | .err => .err
          | .ub => .ub
          | .abort => .abort)
        change Rel _ _ (titleDone x1.data (dataP q1) bytes acc) at hd
        generalize titleDoneM { p with h := { p.h with x := x1 } } q1 res (bs ++ [p.mem.alloc.2]) bytes acc = a at hd
        generalize titleDone x1.data (dataP q1) bytes acc = b at hd
        cases hd with
        | ub => exact .ub
        | err => exact .err
        | abort => exact .abort
        | ok hd =>
          rename_i a t
          have hself := hd.self
          obtain ⟨p2, q2, o⟩ := a
          obtain ⟨b2, q2', o'⟩ := t
          obtain ⟨g1, g2, g3, g4, g5, g6, g7⟩ := hd
          dsimp only at g1 g2 g3 g4 g5 g6 g7 hself
          subst g2 g5 hself
          simp only [Res.bind_ok]
          cases o with
          | none => exact .ok ⟨g1, rfl, g3, g4, rfl, g6, g7⟩
          | some x =>
            obtain ⟨bs2, acc2⟩ := x
            dsimp only
            exact ih g1 g3 (by
              cases hp : p2.h.perr with
              | none => rfl
              | some b => rw [hp] at g6; cases g6) g4

theorem titlesEndM_ok {F : List Nat} {p0 : PlotM} {res : Nat} {r : PlotM × PtrM × Option (List Nat × List Bytes)}
    {t : Buf × Ptr × Option (List Bytes)} (h : TR F p0 res r t) :
    Rel (CR F (fun r : List Nat × List Bytes => r.1) (fun r => r.2)) (titlesEndM res r)
      (match (generalizing := false) t with
        | (b, _, none) => .ok ({ p0.plot with buf := b }, none)
        | (b, q, some titles) =>
          match close q with
          | .ok _ => .ok ({ p0.plot with buf := b }, some titles)
          | .err => .err
          | .ub => .ub
          | .abort => .abort) := by
  have hself := h.self
  obtain ⟨p2, q2, o⟩ := r
  obtain ⟨b2, q2', o'⟩ := t
  obtain ⟨g1, g2, g3, g4, g5, g6, g7⟩ := h
  dsimp only at g1 g2 g3 g4 g5 g6 g7 hself
  subst g2 g5 hself
  unfold titlesEndM
  cases o with
  | none =>
    have : q2 = none := g7 rfl
    subst this
    exact .ok ⟨g1, ⟨g4, g3⟩, rfl, g6⟩
  | some x =>
    obtain ⟨bs2, acc2⟩ := x
    have hc := closeM_rel g4
    dsimp only [Option.map_some]
    generalize closeM p2.h.x q2 = a at hc
    generalize close (dataP q2) = b at hc
    cases hc with
    | ub => exact .ub
    | err => exact .err
    | abort => exact .abort
    | ok hc =>
      rename_i y q4
      obtain ⟨hd, hi⟩ := hc
      simp only [Res.bind_ok]
      refine .ok ⟨?_, ⟨hi, g3⟩, rfl, g6⟩
      rw [← g1]
      unfold PlotM.plot
      show Plot.mk _ _ _ _ y.data = _
      rw [hd]

theorem readPartTitlesM_ok {F : List Nat} {p : PlotM} (h : Ready F p) :
    Rel (CR F (fun r : List Nat × List Bytes => r.1) (fun r => r.2)) (readPartTitlesM p) (readPartTitles p.plot) := by
  obtain ⟨p', e, hp, hc⟩ := clearM_ok h
  unfold readPartTitlesM readPartTitles
  rw [e, ← hp]
  simp only [Res.bind_ok]
  rw [show p'.plot.cda.raw.nmmat = p'.cda.raw.nmmat from rfl]
  cases hn : p'.cda.raw.nmmat with
  | zero => exact .ub
  | succ n =>
    dsimp only
    rw [useDp hc.1]
    simp only [Res.bind_ok]
    have hh := hc.1.heap.alloc.alloc
    have hi : Inv (p'.h.perr.toList ++ (p'.h.dp.toList ++ ((p'.mem.alloc.2 :: [p'.mem.alloc.1.alloc.2]) ++ F)))
        { p'.h.x with mem := p'.mem.alloc.1.alloc.1 } none := hc.1.1.other (hh.perm (by perms))
    have hr := readWordsAtM_ok hi (titleWords p'.h.x.ws) (p'.ptrs.partTitles + 1)
    rw [show p'.plot.buf = BufM.data { p'.h.x with mem := p'.mem.alloc.1.alloc.1 } from rfl]
    rw [show titleWords (BufM.data { p'.h.x with mem := p'.mem.alloc.1.alloc.1 }).ws = titleWords p'.h.x.ws from rfl,
      show p'.plot.ptrs = p'.ptrs from rfl]
    generalize readWordsAtM { p'.h.x with mem := p'.mem.alloc.1.alloc.1 } (titleWords p'.h.x.ws) (p'.ptrs.partTitles + 1) = a at hr
    generalize readWordsAt (BufM.data { p'.h.x with mem := p'.mem.alloc.1.alloc.1 }) (titleWords p'.h.x.ws)
      (p'.ptrs.partTitles + 1) = b at hr
    cases hr with
    | ub => exact .ub
    | err => exact .err
    | abort => exact .abort
    | ok hr =>
      rename_i a t
      obtain ⟨x1, q1, bytes⟩ := a
      obtain ⟨b1, q1', bytes'⟩ := t
      obtain ⟨h1, h2, h3, h4⟩ := hr
      dsimp only at h1 h2 h3 h4
      subst h1 h2 h3
      simp only [Res.bind_ok]
      have hd := titleDoneM_ok (F := F) (p0 := p') (res := p'.mem.alloc.2) (bs := [p'.mem.alloc.1.alloc.2]) (bytes := bytes)
        (acc := []) (p := { p' with h := { p'.h with x := x1 } }) (q := q1) rfl hc.1.2 hc.2 h4
      change Rel _ _ (titleDone x1.data (dataP q1) bytes []) at hd
      generalize titleDoneM { p' with h := { p'.h with x := x1 } } q1 p'.mem.alloc.2 [p'.mem.alloc.1.alloc.2] bytes [] = a at hd
      generalize titleDone x1.data (dataP q1) bytes [] = b at hd
      cases hd with
      | ub => exact .ub
      | err => exact .err
      | abort => exact .abort
      | ok hd =>
        rename_i a t
        have hself := hd.self
        obtain ⟨p2, q2, o⟩ := a
        obtain ⟨b2, q2', o'⟩ := t
        obtain ⟨g1, g2, g3, g4, g5, g6, g7⟩ := hd
        dsimp only at g1 g2 g3 g4 g5 g6 g7 hself
        subst g2 g5 hself
        simp only [Res.bind_ok]
        unfold titlesRestM
        cases o with
        | none =>
          have : q2 = none := g7 rfl
          subst this
          exact .ok ⟨g1, ⟨g4, g3⟩, rfl, g6⟩
        | some x =>
          obtain ⟨bs2, acc2⟩ := x
          dsimp only [Option.map_some]
          have hl := titleLoopM_ok (F := F) (p0 := p') (res := p'.mem.alloc.2) n (p := p2) (q := q2) (bs := bs2) (acc := acc2)
            g1 g3 (by
              cases hp : p2.h.perr with
              | none => rfl
              | some b => rw [hp] at g6; cases g6) g4
          generalize titleLoopM p'.mem.alloc.2 n p2 q2 bs2 acc2 = a at hl
          generalize titleLoop n p2.h.x.data (dataP q2) acc2 = b at hl
          cases hl with
          | ub => exact .ub
          | err => exact .err
          | abort => exact .abort
          | ok hl =>
            rename_i a t
            have := titlesEndM_ok hl
            obtain ⟨b3, q3, o3⟩ := t
            cases o3 with
            | none => exact this
            | some l => exact this

/-! ## Parts -/

theorem selectPartM_ok {F : List Nat} (part : Nat) : ∀ (es : List Con) (i : Nat) (ids : List Nat) {m : Mem} {k : KindM},
    Heap m (k.blks ++ F) [] → (k.els = [] → k.blks = []) →
    Rel (fun r l => r.2.els = k.els ++ l ∧ Heap r.1 (r.2.blks ++ F) [] ∧ (r.2.els = [] → r.2.blks = [])) (selectPartM part i es ids m k)
      (selectPart part i es ids) := by
  intro es
  induction es with
  | nil =>
    intro i ids m k h hk
    exact .ok ⟨by simp, h, hk⟩
  | cons e es ih =>
    intro i ids m k h hk
    unfold selectPartM selectPart
    by_cases he : e.material = part
    · rw [if_pos he, if_pos he]
      obtain ⟨m1, b1, e1, h1⟩ := Heap.realloc (m := m) (o := k.ids) (L := k.indices.toList ++ F) (D := [])
        (h.perm (by simp only [KindM.blks]; perms))
      obtain ⟨m2, b2, e2, h2⟩ := Heap.realloc (m := m1) (o := k.indices) (L := b1 :: F) (D := [])
        (h1.perm (by perms))
      rw [e1]
      simp only [Res.bind_ok]
      rw [e2]
      simp only [Res.bind_ok]
      cases ids.head? with
      | none => exact .ub
      | some id =>
        dsimp only
        have hi := ih (i + 1) ids.tail (m := m2) (k := ⟨some b1, some b2, k.els ++ [(i, id)]⟩) (h2.perm (by
          simp only [KindM.blks, Option.toList_some]; perms)) (fun h => by simp at h)
        generalize selectPartM part (i + 1) es ids.tail m2 ⟨some b1, some b2, k.els ++ [(i, id)]⟩ = a at hi
        generalize selectPart part (i + 1) es ids.tail = b at hi
        cases hi with
        | ub => exact .ub
        | err => exact .err
        | abort => exact .abort
        | ok hi => exact .ok ⟨by rw [hi.1]; simp, hi.2⟩
    · rw [if_neg he, if_neg he]
      exact ih _ _ h hk

/-- The arrays of a part belong to the caller. -/
def AR (F : List Nat) (r : PlotM × KindM) (t : Plot × List (Nat × Nat)) : Prop :=
  r.1.plot = t.1 ∧ r.2.els = t.2 ∧ Clean (r.2.blks ++ F) r.1 ∧ (r.2.els = [] → r.2.blks = [])

theorem clean_of {F : List Nat} {p : PlotM} (h : Ready F p) (he : p.h.perr.isSome = false) : Clean F p :=
  ⟨h, by cases hp : p.h.perr with
    | none => rfl
    | some b => rw [hp] at he; cases he⟩

theorem addElementsM_ok {part : Nat} {readI : PlotM → Res (OutM (List Nat))} {readE : PlotM → Res (OutM (List Con))}
    {rI : Plot → Call (List Nat)} {rE : Plot → Call (List Con)}
    (hI : ∀ {F : List Nat} {p : PlotM}, Ready F p → Rel (CR F (fun r : List Nat × List Nat => r.1) (fun r => r.2)) (readI p) (rI p.plot))
    (hE : ∀ {F : List Nat} {p : PlotM}, Ready F p → Rel (CR F (fun r : List Nat × List Con => r.1) (fun r => r.2)) (readE p) (rE p.plot))
    {F : List Nat} {p : PlotM} (h : Clean F p)
    (hnil : ∀ r, readI p = .ok r → r.2.map (·.2) = some [] → r.2 = some ([], [])) :
    Rel (AR F) (addElementsM part readI readE p) (addElements part rI rE p.plot) := by
  unfold addElementsM addElements
  have hr := hI h.1
  generalize ha : readI p = a at hr
  generalize rI p.plot = b at hr
  cases hr with
  | ub => exact .ub
  | err => exact .err
  | abort => exact .abort
  | ok hr =>
    rename_i a t
    obtain ⟨p1, o⟩ := a
    obtain ⟨t1, o'⟩ := t
    obtain ⟨h1, h2, h3, h4⟩ := hr
    dsimp only at h1 h2 h3 h4
    subst h1 h3
    simp only [Res.bind_ok]
    cases o with
    | none =>
      obtain ⟨p2, e, hp, hc⟩ := clearM_ok h2
      dsimp only
      rw [e]
      exact .ok ⟨hp, rfl, hc, fun _ => rfl⟩
    | some x =>
      obtain ⟨bi, ids⟩ := x
      dsimp only [Option.map_some]
      by_cases hids : ids = []
      · rw [if_pos hids, if_pos hids]
        have := hnil _ ha (by rw [hids]; rfl)
        cases this
        exact .ok ⟨rfl, rfl, clean_of h2 h4, fun _ => rfl⟩
      · rw [if_neg hids, if_neg hids]
        have hr := hE h2
        generalize readE p1 = a at hr
        generalize rE p1.plot = b at hr
        cases hr with
        | ub => exact .ub
        | err => exact .err
        | abort => exact .abort
        | ok hr =>
          rename_i a t
          obtain ⟨p2, o⟩ := a
          obtain ⟨t2, o'⟩ := t
          obtain ⟨g1, g2, g3, g4⟩ := hr
          dsimp only at g1 g2 g3 g4
          subst g1 g3
          simp only [Res.bind_ok]
          unfold addFoundM
          cases o with
          | none =>
            obtain ⟨p3, e, hp, hc⟩ := clearM_ok g2
            dsimp only
            rw [e]
            simp only [Res.bind_ok]
            obtain ⟨m1, e1, k1⟩ := Heap.freeAll (m := p3.mem) (l := bi)
              (L := p3.h.x.own ++ (p3.h.perr.toList ++ (p3.h.dp.toList ++ F))) (D := []) (hc.1.heap.perm (by
                simp only [blocks, Option.map_none, Option.map_some, Option.getD_none, Option.getD_some]; perms))
            rw [e1]
            exact .ok ⟨hp, rfl, hc.withMem k1, fun _ => rfl⟩
          | some x =>
            obtain ⟨be, els⟩ := x
            dsimp only [Option.map_some]
            have hs := selectPartM_ok (F := bi ++ (be ++ (p2.h.x.own ++ (p2.h.perr.toList ++ (p2.h.dp.toList ++ F))))) part els 0 ids
              (m := p2.mem) (k := {}) (g2.heap.perm (by
                simp only [blocks, Option.map_some, Option.getD_some, KindM.blks, Option.toList_none]; perms)) (fun _ => rfl)
            show Rel _ (selectPartM part 0 els ids p2.mem {} >>= _) _
            generalize selectPartM part 0 els ids p2.mem {} = a at hs
            generalize selectPart part 0 els ids = b at hs
            cases hs with
            | ub => exact .ub
            | err => exact .err
            | abort => exact .abort
            | ok hs =>
              rename_i a l
              obtain ⟨m, k⟩ := a
              obtain ⟨hs1, hs2, hs3⟩ := hs
              simp only [Res.bind_ok]
              dsimp only at hs1 hs2 hs3 ⊢
              obtain ⟨m1, e1, k1⟩ := Heap.freeAll (m := m) (l := bi)
                (L := be ++ (k.blks ++ (p2.h.x.own ++ (p2.h.perr.toList ++ (p2.h.dp.toList ++ F))))) (D := []) (hs2.perm (by perms))
              rw [e1]
              simp only [Res.bind_ok]
              obtain ⟨m2, e2, k2⟩ := k1.freeAll
              rw [e2]
              exact .ok ⟨rfl, by simpa using hs1, (clean_of g2 g4).withMem (k2.perm (by perms)), hs3⟩

/-- Specification: the numbers of elements and parts are words of at most 64 bits. -/
def Counts (c : Cda) : Prop := c.raw.nel2 < u64 ∧ c.raw.nel4 < u64 ∧ c.raw.nelt < u64 ∧ c.raw.nmmat < u64 ∧ c.raw.nel8 < u64

theorem toWords_length (ws : Nat) : ∀ (n : Nat) (bytes : Bytes), (toWords ws n bytes).length = n
  | 0, _ => rfl
  | n + 1, bytes => by unfold toWords; rw [List.length_cons, toWords_length ws n]

theorem readAt_same {p q : Plot} {n w : Nat} {o : Option (List Nat)} (h : readAt p n w = .ok (q, o)) :
    q = { p with buf := q.buf } ∧ ∀ l, o = some l → l.length = n % u64 := by
  unfold readAt at h
  split at h
  · split at h
    · simp only [Res.ok.injEq, Prod.mk.injEq] at h
      obtain ⟨rfl, rfl⟩ := h
      refine ⟨rfl, fun l hl => ?_⟩
      split at hl
      · cases hl
      · cases hl
        exact toWords_length _ _ _
    · cases h
    · cases h
    · cases h
  · cases h
  · cases h
  · cases h

theorem readIds_same {p q : Plot} {ptr n : Nat} {o : Option (List Nat)} (h : readIds p ptr n = .ok (q, o)) :
    q = { p with buf := q.buf } := by
  unfold readIds at h
  split at h
  · cases h; rfl
  · exact (readAt_same h).1

theorem map_same {p q : Plot} {n w : Nat} {f : List Nat → List Con} {o : Option (List Con)}
    (h : (readAt p n w).map f = .ok (q, o)) : q = { p with buf := q.buf } := by
  cases hr : readAt p n w with
  | ok r =>
    rw [hr] at h
    obtain ⟨q', o'⟩ := r
    cases h
    exact (readAt_same hr).1
  | ub => rw [hr] at h; cases h
  | err => rw [hr] at h; cases h
  | abort => rw [hr] at h; cases h

theorem addElements_same {part : Nat} {rI : Plot → Call (List Nat)} {rE : Plot → Call (List Con)} {p q : Plot}
    {l : List (Nat × Nat)} (hI : ∀ p q o, rI p = .ok (q, o) → q = { p with buf := q.buf })
    (hE : ∀ p q o, rE p = .ok (q, o) → q = { p with buf := q.buf })
    (h : addElements part rI rE p = .ok (q, l)) : q = { p with buf := q.buf } := by
  unfold addElements at h
  cases h1 : rI p with
  | ub => rw [h1] at h; cases h
  | err => rw [h1] at h; cases h
  | abort => rw [h1] at h; cases h
  | ok r =>
    obtain ⟨p1, o⟩ := r
    have e1 := hI _ _ _ h1
    rw [h1] at h
    cases o with
    | none => cases h; exact e1
    | some ids =>
      dsimp only at h
      split at h
      · cases h; exact e1
      · cases h2 : rE p1 with
        | ub => rw [h2] at h; cases h
        | err => rw [h2] at h; cases h
        | abort => rw [h2] at h; cases h
        | ok r =>
          obtain ⟨p2, o⟩ := r
          have e2 := hE _ _ _ h2
          rw [h2] at h
          have e3 : p2 = { p with buf := p2.buf } := by rw [e2, e1]
          cases o with
          | none => cases h; exact e3
          | some els =>
            dsimp only at h
            split at h
            · cases h; exact e3
            · cases h
            · cases h
            · cases h

theorem readIdsM_nil {F : List Nat} {p : PlotM} (h : Ready F p) {ptr count : Nat} (hn : count < u64) {r : OutM (List Nat)}
    (e : readIdsM p ptr count = .ok r) (hr : r.2.map (·.2) = some []) : r.2 = some ([], []) := by
  by_cases h0 : count = 0
  · unfold readIdsM at e
    obtain ⟨p', e1, hp, hc⟩ := clearM_ok h
    rw [e1] at e
    simp only [Res.bind_ok] at e
    rw [if_pos h0] at e
    cases e
    rfl
  · have hi := readIdsM_ok h ptr count
    rw [e] at hi
    generalize hy : readIds p.plot ptr count = y at hi
    cases hi with
    | ok hi =>
      rename_i t
      obtain ⟨q, o⟩ := t
      have h1 := hi.val
      dsimp only at h1
      rw [hr] at h1
      unfold readIds at hy
      rw [if_neg h0] at hy
      have := (readAt_same hy).2 [] h1.symm
      rw [Nat.mod_eq_of_lt hn] at this
      exact absurd this.symm h0

theorem toU64_lt (z : Int) : toU64 z < u64 := by
  unfold toU64 u64
  omega

/-- Specification: a part without its blocks. -/
def PartM.part (p : PartM) : Part := ⟨p.solids.els, p.thick.els, p.beams.els, p.shells.els⟩

theorem readPartM_ok {F : List Nat} {p : PlotM} (h : Ready F p) (hn : Counts p.cda) (part : Nat) :
    Rel (CR F (fun r : List Nat × PartM => r.1) (fun r => r.2.part)) (readPartM p part) (readPart p.plot part) := by
  obtain ⟨p0, e, hp, hc⟩ := clearM_ok h
  unfold readPartM readPart
  have hn0 : Counts p0.plot.cda := by rw [hp]; exact hn
  rw [e, ← hp]
  simp only [Res.bind_ok]
  have r1 := addElementsM_ok (part := part) (rI := readSolidIds) (rE := readSolidElements)
    (readI := fun p => readIdsM p p.ptrs.el8Ids (toU64 p.cda.raw.nel8)) (readE := readSolidElementsM)
    (fun h => readIdsM_ok h _ _) (fun h => readSolidElementsM_ok h) hc (fun r e hr => readIdsM_nil hc.1 (toU64_lt _) e hr)
  generalize addElementsM part (fun p => readIdsM p p.ptrs.el8Ids (toU64 p.cda.raw.nel8)) readSolidElementsM p0 = a1 at r1
  generalize hb1 : addElements part readSolidIds readSolidElements p0.plot = b1 at r1
  cases r1 with
  | ub => exact .ub
  | err => exact .err
  | abort => exact .abort
  | ok r1 =>
  rename_i a b
  obtain ⟨p1, k1⟩ := a
  obtain ⟨q1, l1⟩ := b
  obtain ⟨g1, g2, g3, z1⟩ := r1
  dsimp only at g1 g2 g3 z1
  subst g1 g2
  have hn1 : Counts p1.plot.cda := by
    rw [addElements_same (fun p q o h => readIds_same h) (fun p q o h => by
      unfold readSolidElements at h
      split at h
      · cases h; rfl
      · exact map_same h) hb1]
    exact hn0
  simp only [Res.bind_ok]
  simp only [Res.bind]
  have r2 := addElementsM_ok (part := part) (rI := readThickIds) (rE := readThickElements)
    (readI := fun p => readIdsM p p.ptrs.eltIds p.cda.raw.nelt) (readE := readThickElementsM)
    (fun h => readIdsM_ok h _ _) (fun h => readThickElementsM_ok h) g3 (fun r e hr => readIdsM_nil g3.1 hn1.2.2.1 e hr)
  generalize addElementsM part (fun p => readIdsM p p.ptrs.eltIds p.cda.raw.nelt) readThickElementsM p1 = a2 at r2
  generalize hb2 : addElements part readThickIds readThickElements p1.plot = b2 at r2
  cases r2 with
  | ub => exact .ub
  | err => exact .err
  | abort => exact .abort
  | ok r2 =>
  rename_i a b
  obtain ⟨p2, k2⟩ := a
  obtain ⟨q2, l2⟩ := b
  obtain ⟨g1, g2, g3, z2⟩ := r2
  dsimp only at g1 g2 g3 z2
  subst g1 g2
  have hn2 : Counts p2.plot.cda := by
    rw [addElements_same (fun p q o h => readIds_same h) (fun p q o h => by
      unfold readThickElements at h
      split at h
      · cases h; rfl
      · exact map_same h) hb2]
    exact hn1
  simp only [Res.bind_ok]
  have r3 := addElementsM_ok (part := part) (rI := readBeamIds) (rE := readBeamElements)
    (readI := fun p => readIdsM p p.ptrs.el2Ids p.cda.raw.nel2) (readE := readBeamElementsM)
    (fun h => readIdsM_ok h _ _) (fun h => readBeamElementsM_ok h) g3 (fun r e hr => readIdsM_nil g3.1 hn2.1 e hr)
  generalize addElementsM part (fun p => readIdsM p p.ptrs.el2Ids p.cda.raw.nel2) readBeamElementsM p2 = a3 at r3
  generalize hb3 : addElements part readBeamIds readBeamElements p2.plot = b3 at r3
  cases r3 with
  | ub => exact .ub
  | err => exact .err
  | abort => exact .abort
  | ok r3 =>
  rename_i a b
  obtain ⟨p3, k3⟩ := a
  obtain ⟨q3, l3⟩ := b
  obtain ⟨g1, g2, g3, z3⟩ := r3
  dsimp only at g1 g2 g3 z3
  subst g1 g2
  have hn3 : Counts p3.plot.cda := by
    rw [addElements_same (fun p q o h => readIds_same h) (fun p q o h => by
      unfold readBeamElements at h
      split at h
      · cases h; rfl
      · exact map_same h) hb3]
    exact hn2
  simp only [Res.bind_ok]
  have r4 := addElementsM_ok (part := part) (rI := readShellIds) (rE := readShellElements)
    (readI := fun p => readIdsM p p.ptrs.el4Ids p.cda.raw.nel4) (readE := readShellElementsM)
    (fun h => readIdsM_ok h _ _) (fun h => readShellElementsM_ok h) g3 (fun r e hr => readIdsM_nil g3.1 hn3.2.1 e hr)
  generalize addElementsM part (fun p => readIdsM p p.ptrs.el4Ids p.cda.raw.nel4) readShellElementsM p3 = a4 at r4
  generalize hb4 : addElements part readShellIds readShellElements p3.plot = b4 at r4
  cases r4 with
  | ub => exact .ub
  | err => exact .err
  | abort => exact .abort
  | ok r4 =>
  rename_i a b
  obtain ⟨p4, k4⟩ := a
  obtain ⟨q4, l4⟩ := b
  obtain ⟨g1, g2, g3, z4⟩ := r4
  dsimp only at g1 g2 g3 z4
  subst g1 g2
  simp only [Res.bind_ok]
  by_cases hz : k1.els = [] ∧ k2.els = [] ∧ k3.els = [] ∧ k4.els = []
  · rw [if_pos hz, if_pos hz]
    rw [z1 hz.1, z2 hz.2.1, z3 hz.2.2.1, z4 hz.2.2.2] at g3
    exact errM_rel g3.1
  · rw [if_neg hz, if_neg hz]
    refine .ok ⟨rfl, g3.1.perm ?_, rfl, by rw [g3.2]; rfl⟩
    simp only [blocks, Option.map_some, Option.getD_some]
    perms

theorem partIdLoop_cons : ∀ (n : Nat) {b b' : Buf} {q q' : Ptr} {acc l : List Nat}, partIdLoop n b q acc = .ok (b', q', l) →
    acc ≠ [] → l ≠ [] := by
  intro n
  induction n with
  | zero => intro b b' q q' acc l h ha; cases h; exact ha
  | succ n ih =>
    intro b b' q q' acc l h _
    unfold partIdLoop at h
    split at h
    · split at h
      · exact ih h (by simp)
      · cases h
      · cases h
      · cases h
    · cases h
    · cases h
    · cases h

theorem readPartIds_cons {p : Plot} {n : Nat} {t : Plot × Option (List Nat)} (h0 : p.ptrs.partIds = 0)
    (h1 : ¬ p.ptrs.partTitles = 0) (hn : p.cda.raw.nmmat = n + 1) (h : readPartIds p = .ok t) : some [] ≠ t.2 := by
  unfold readPartIds at h
  rw [if_pos h0, if_neg h1, hn] at h
  dsimp only at h
  repeat' split at h
  all_goals first | cases h; done | skip
  rename_i h3 _ _ _
  cases h
  intro hx
  injection hx with hx
  exact partIdLoop_cons _ h3 (by simp) hx.symm

theorem readPartIds_same {p q : Plot} {o : Option (List Nat)} (h : readPartIds p = .ok (q, o)) :
    q = { p with buf := q.buf } := by
  unfold readPartIds at h
  split at h
  · split at h
    · cases h; rfl
    · cases hn : p.cda.raw.nmmat with
      | zero => rw [hn] at h; cases h
      | succ n =>
        rw [hn] at h
        dsimp only at h
        repeat' split at h
        all_goals first | cases h; done | skip
        cases h
        rfl
  · exact readIds_same h

theorem readPartIdsM_nil {F : List Nat} {p : PlotM} (h : Ready F p) (hn : p.cda.raw.nmmat < u64) {r : OutM (List Nat)}
    (e : readPartIdsM p = .ok r) (hr : r.2.map (·.2) = some []) : r.2 = some ([], []) := by
  obtain ⟨p', e1, hp, hc⟩ := clearM_ok h
  have hcda : p'.cda = p.cda := congrArg Plot.cda hp
  unfold readPartIdsM at e
  rw [e1] at e
  simp only [Res.bind_ok] at e
  by_cases h0 : p'.ptrs.partIds = 0
  · rw [if_pos h0] at e
    by_cases h1 : p'.ptrs.partTitles = 0
    · rw [if_pos h1] at e
      obtain ⟨p2, e2, -, -, -⟩ := errM_ok (α := List Nat × List Nat) hc.1
      rw [e2] at e
      cases e
      cases hr
    · rw [if_neg h1] at e
      cases hm : p'.cda.raw.nmmat with
      | zero => rw [hm] at e; cases e
      | succ n =>
        rw [hm] at e
        have hi := headerPartIdsM_ok hc n h0 h1 hm
        change headerPartIdsM p' n = _ at e
        rw [e] at hi
        generalize hy : readPartIds p'.plot = y at hi
        cases hi with
        | ok hi =>
          rename_i t
          have hv := hi.val
          rw [hr] at hv
          exact absurd hv (readPartIds_cons h0 h1 hm hy)
  · rw [if_neg h0] at e
    exact readIdsM_nil hc.1 (by rw [hcda]; exact hn) e hr

theorem counts_same {p q : Plot} (h : q = { p with buf := q.buf }) (hn : Counts p.cda) : Counts q.cda := by
  have := congrArg Plot.cda h
  dsimp only at this
  rw [this]
  exact hn

/-- The same as in `readPartById`. -/
def byIdDone (id : Nat) (p : Plot) (ids : List Nat) : Call Part :=
  if ids = [] then .ok (p, none)
  else
    match indexForId id ids with
    | .ok none => .ok (p, none)
    | .ok (some i) => readPart p i
    | .err => .err
    | .ub => .ub
    | .abort => .abort

theorem readPartById_none {p q : Plot} (h : readPartIds p = .ok (q, none)) (id : Nat) : readPartById p id = .ok (q, none) := by
  unfold readPartById
  rw [h]

theorem readPartById_some {p q : Plot} {ids : List Nat} (h : readPartIds p = .ok (q, some ids)) (id : Nat) :
    readPartById p id = byIdDone id q ids := by
  unfold readPartById byIdDone
  rw [h]
  generalize indexForId = ix
  generalize readPart = rp
  by_cases hi : ids = []
  · subst hi
    rfl
  · dsimp only
    rw [if_neg hi, if_neg hi]
    generalize ix id ids = r
    cases r with
    | ok i => cases i <;> rfl
    | ub => rfl
    | err => rfl
    | abort => rfl

theorem readPartById_bad {p : Plot} (id : Nat) : (readPartIds p = .ub → readPartById p id = .ub) ∧
    (readPartIds p = .err → readPartById p id = .err) ∧ (readPartIds p = .abort → readPartById p id = .abort) := by
  unfold readPartById
  refine ⟨fun h => ?_, fun h => ?_, fun h => ?_⟩ <;> rw [h]

theorem byIdDoneM_ok {F : List Nat} {p : PlotM} {bs ids : List Nat} (id : Nat) (hn : Counts p.cda) (h : Ready (bs ++ F) p)
    (hnil : ids = [] → bs = []) :
    Rel (CR F (fun r : List Nat × PartM => r.1) (fun r => r.2.part)) (byIdDoneM id p bs ids) (byIdDone id p.plot ids) := by
  unfold byIdDoneM byIdDone
  generalize indexForId = ix
  by_cases hids : ids = []
  · rw [if_pos hids, if_pos hids]
    rw [hnil hids] at h
    exact errM_rel h
  · rw [if_neg hids, if_neg hids]
    obtain ⟨m1, e1, k1⟩ := Heap.freeAll (m := p.mem) (l := bs)
      (L := p.h.x.own ++ (p.h.perr.toList ++ (p.h.dp.toList ++ F))) (D := []) (h.heap.perm (by perms))
    have hR := h.withMem k1
    generalize ix id ids = r
    cases r with
    | ub => exact .ub
    | err => exact .err
    | abort => exact .abort
    | ok i =>
      simp only [Res.bind_ok]
      rw [e1]
      simp only [Res.bind_ok]
      cases i with
      | none => exact errM_rel hR
      | some i => exact readPartM_ok hR hn i

theorem readPartByIdM_ok {F : List Nat} {p : PlotM} (h : Ready F p) (hn : Counts p.cda) (id : Nat) :
    Rel (CR F (fun r : List Nat × PartM => r.1) (fun r => r.2.part)) (readPartByIdM p id) (readPartById p.plot id) := by
  obtain ⟨p0, e, hp, hc⟩ := clearM_ok h
  unfold readPartByIdM
  have hn0 : Counts p0.plot.cda := by rw [hp]; exact hn
  rw [e, ← hp]
  simp only [Res.bind_ok]
  have r1 := readPartIdsM_ok hc.1
  generalize ha : readPartIdsM p0 = a at r1
  generalize hb : readPartIds p0.plot = b at r1
  cases r1 with
  | ub => rw [(readPartById_bad id).1 hb]; exact .ub
  | err => rw [(readPartById_bad id).2.1 hb]; exact .err
  | abort => rw [(readPartById_bad id).2.2 hb]; exact .abort
  | ok r1 =>
    rename_i a t
    have hnil := readPartIdsM_nil hc.1 hn0.2.2.2.1 ha
    obtain ⟨p1, o⟩ := a
    obtain ⟨t1, o'⟩ := t
    obtain ⟨h1, h2, h3, h4⟩ := r1
    dsimp only at h1 h2 h3 h4 hnil
    subst h1 h3
    simp only [Res.bind_ok]
    cases o with
    | none =>
      rw [readPartById_none hb]
      exact .ok ⟨rfl, h2, rfl, h4⟩
    | some x =>
      obtain ⟨bs, ids⟩ := x
      rw [readPartById_some hb]
      exact byIdDoneM_ok id (counts_same (readPartIds_same hb) hn0) h2 (fun hids => by
        dsimp only at hids
        have := hnil (by rw [hids]; rfl)
        cases this
        rfl)

end Dyna.D3Mem
