import Verif.D3PartMem
import Verif.Props.D3Mem
import Verif.Props.D3PartNodes
import Verif.Props.D3AllIds
/-!
# C91: memory of the functions for the nodes of a part and for the ids of all elements
-/

namespace Dyna.D3Mem

open Dyna.KeyMem Dyna.BinoutMem Dyna.D3

/-! ## Blocks of what is loaded -/

/-- A call that gives nothing, or one block. -/
def One {α : Type} (read : PlotM → Res (OutM (List α))) : Prop :=
  ∀ (F : List Nat) (p : PlotM) (r : OutM (List α)) (bs : List Nat) (l : List α), Ready F p → Counts p.cda → read p = .ok r →
    r.2 = some (bs, l) → (l = [] → bs = []) ∧ (l ≠ [] → bs.length = 1)

theorem readBlockM_one {p : PlotM} {temp : Bool} {n word : Nat} {r : OutM (List Nat)} {bs l : List Nat}
    (h : readBlockM p temp n word = .ok r) (hr : r.2 = some (bs, l)) : bs.length = 1 := by
  unfold readBlockM at h
  obtain ⟨a, h1, h2⟩ := bindRes_inv h
  unfold finishM at h2
  obtain ⟨m, h3, h4⟩ := bindRes_inv h2
  cases ha : a.2 with
  | none =>
    rw [ha] at h4
    obtain ⟨m', h5, h6⟩ := bindRes_inv h4
    cases h6
    cases hr
  | some v =>
    rw [ha] at h4
    cases h4
    cases hr
    rfl

theorem readIdsM_one {p : PlotM} {F : List Nat} {ptr n : Nat} (h : Ready F p) (hn : n < u64) {r : OutM (List Nat)}
    {bs l : List Nat} (e : readIdsM p ptr n = .ok r) (hr : r.2 = some (bs, l)) :
    (l = [] → bs = []) ∧ (l ≠ [] → bs.length = 1) := by
  refine ⟨fun h0 => ?_, fun h0 => ?_⟩
  · have := readIdsM_nil h hn e (by rw [hr, h0]; rfl)
    rw [hr] at this
    cases this
    rfl
  · unfold readIdsM at e
    obtain ⟨p', h1, h2⟩ := bindRes_inv e
    split at h2
    · cases h2
      cases hr
      exact absurd rfl h0
    · exact readBlockM_one h2 hr

theorem readElementsTableM_one {p : PlotM} {c : Bool} {n word : Nat} {f : List Nat → List Con} {r : OutM (List Con)}
    {bs : List Nat} {l : List Con} (hf : c = false → ∀ d, f d ≠ []) (e : readElementsTableM p c n word f = .ok r)
    (hr : r.2 = some (bs, l)) : (l = [] → bs = []) ∧ (l ≠ [] → bs.length = 1) := by
  unfold readElementsTableM at e
  obtain ⟨p', h1, h2⟩ := bindRes_inv e
  cases c with
  | true =>
    rw [if_pos rfl] at h2
    cases h2
    cases hr
    exact ⟨fun _ => rfl, fun h => absurd rfl h⟩
  | false =>
    rw [if_neg (by decide)] at h2
    obtain ⟨a, h3, h4⟩ := bindRes_inv h2
    cases h4
    cases ha : a.2 with
    | none =>
      simp only [ha] at hr
      cases hr
    | some v =>
      obtain ⟨b, d⟩ := v
      simp only [ha] at hr
      cases hr
      exact ⟨fun h => absurd h (hf rfl d), fun _ => readBlockM_one h3 ha⟩

theorem cons_ne {ws k n : Nat} (h : n ≠ 0) (d : List Nat) : cons ws k n d ≠ [] := by
  cases n with
  | zero => exact absurd rfl h
  | succ n => unfold cons; exact List.cons_ne_nil _ _

theorem beamCons_ne {ws n : Nat} (h : n ≠ 0) (d : List Nat) : beamCons ws n d ≠ [] := by
  cases n with
  | zero => exact absurd rfl h
  | succ n => unfold beamCons; exact List.cons_ne_nil _ _

theorem one_solidIds : One readSolidIdsM := fun _ _ _ _ _ h _ e hr => readIdsM_one h (toU64_lt _) e hr
theorem one_beamIds : One readBeamIdsM := fun _ _ _ _ _ h hc e hr => readIdsM_one h hc.1 e hr
theorem one_shellIds : One readShellIdsM := fun _ _ _ _ _ h hc e hr => readIdsM_one h hc.2.1 e hr
theorem one_thickIds : One readThickIdsM := fun _ _ _ _ _ h hc e hr => readIdsM_one h hc.2.2.1 e hr
theorem one_solids : One readSolidElementsM := fun _ p _ _ _ _ hc e hr => readElementsTableM_one (fun h => cons_ne (by
  have h8 := hc.2.2.2.2
  unfold u64 at h8
  have : ¬ p.cda.raw.nel8 ≤ 0 := of_decide_eq_false h
  unfold toU64 u64
  omega)) e hr
theorem one_beams : One readBeamElementsM := fun _ _ _ _ _ _ _ e hr => readElementsTableM_one (fun h => beamCons_ne (by
  simpa using h)) e hr
theorem one_shells : One readShellElementsM := fun _ _ _ _ _ _ _ e hr => readElementsTableM_one (fun h => cons_ne (by
  simpa using h)) e hr
theorem one_thicks : One readThickElementsM := fun _ _ _ _ _ _ _ e hr => readElementsTableM_one (fun h => cons_ne (by
  simpa using h)) e hr

/-! ## One kind of elements -/

/-- The ids: `idsOrLoadM` without memory. -/
def idsOrLoad (ids : Option (List Nat)) (rI : Plot → Call (List Nat)) (p : Plot) : Res (Plot × Option (List Nat)) :=
  match ids with
  | some l => .ok (p, some l)
  | none => do
    let r ← (rI p : Res (Plot × Option (List Nat)))
    .ok (r.1, r.2.bind fun l => if l = [] then none else some l)

/-- The connectivity: `consOrLoadM` without memory. -/
def consOrLoad (els : Option (List Con)) (num : Nat) (rE : Plot → Call (List Con)) (p : Plot) :
    Res (Plot × Option (List Con × Nat)) :=
  match els with
  | some l => .ok (p, some (l, num))
  | none => do
    let r ← (rE p : Res (Plot × Option (List Con)))
    .ok (r.1, r.2.bind fun l => if l = [] then none else some (l, l.length))

/-- The loop: `pushFoundM` without memory. -/
def pushFound (cap k : Nat) (nodeIds : Option (List Nat)) (partIds ids acc : List Nat) (c : Plot × Option (List Con × Nat)) :
    Res (Plot × List Nat) :=
  match c.2 with
  | none => .ok (c.1, acc)
  | some (els, num) => do
    let acc ← pushElements cap k nodeIds ids num els partIds acc
    .ok (c.1, acc)

/-- What follows the ids. -/
def withIds (cap k : Nat) (nodeIds : Option (List Nat)) (partIds acc : List Nat) (els : Option (List Con))
    (rE : Plot → Call (List Con)) (i : Plot × Option (List Nat)) : Res (Plot × List Nat) :=
  match i.2 with
  | none => .ok (i.1, acc)
  | some l => consOrLoad els l.length rE i.1 >>= pushFound cap k nodeIds partIds l acc

theorem addPartNodes_eq (cap k : Nat) (nodeIds : Option (List Nat)) (partIds : List Nat)
    (ids : Option (List Nat)) (els : Option (List Con)) (rI : Plot → Call (List Nat)) (rE : Plot → Call (List Con))
    (p : Plot) (acc : List Nat) (h : partIds ≠ []) :
    addPartNodes cap k nodeIds partIds ids els rI rE p acc =
      (idsOrLoad ids rI p >>= withIds cap k nodeIds partIds acc els rE) := by
  unfold addPartNodes idsOrLoad withIds consOrLoad pushFound
  rw [if_neg h]
  generalize pushElements cap k nodeIds = pe
  cases ids with
  | some l =>
    cases els with
    | some e => rfl
    | none =>
      simp only [Res.bind_ok]
      generalize rE p = x
      rcases x with ⟨q, o⟩ | _ | _ | _ <;> try rfl
      rcases o with _ | _ | ⟨e, o⟩ <;> rfl
  | none =>
    generalize rI p = y
    rcases y with ⟨q, o⟩ | _ | _ | _ <;> try rfl
    rcases o with _ | _ | ⟨i, l⟩ <;> try rfl
    simp only [Res.bind_ok, Option.bind_some, reduceCtorEq, if_false, Option.getD_some]
    cases els with
    | some e => rfl
    | none =>
      simp only []
      generalize rE q = x
      rcases x with ⟨q, o⟩ | _ | _ | _ <;> try rfl
      rcases o with _ | _ | ⟨e, o⟩ <;> rfl

/-- How many blocks are lost with the connectivity; `n` is the number of blocks of loaded ids. -/
def lostCons (els : Option (List Con)) (n : Nat) (rE : Plot → Call (List Con)) (p : Plot) : Nat :=
  match els with
  | some _ => 0
  | none =>
    match rE p with
    | .ok (_, some []) => n
    | .ok (_, some (_ :: _)) => 1
    | _ => 0

/-- How many blocks are lost with one kind of elements. -/
def lostKind (partIds : List Nat) (ids : Option (List Nat)) (els : Option (List Con)) (rI : Plot → Call (List Nat))
    (rE : Plot → Call (List Con)) (p : Plot) : Nat :=
  if partIds = [] then 0
  else match ids with
    | some _ => lostCons els 0 rE p
    | none =>
      match rI p with
      | .ok (q, some (_ :: _)) => lostCons els 1 rE q
      | _ => 0

/-- A call with memory agrees with the one without. -/
def Agrees {α : Type} (read : PlotM → Res (OutM (List α))) (rd : Plot → Call (List α)) : Prop :=
  ∀ {F : List Nat} {p : PlotM}, Ready F p → Rel (CR F (fun r : List Nat × List α => r.1) (fun r => r.2)) (read p) (rd p.plot)

/-- A call only changes the buffer. -/
def Keeps {α : Type} (rd : Plot → Call α) : Prop := ∀ p q o, rd p = .ok (q, o) → q = { p with buf := q.buf }

theorem cda_of {p : PlotM} {q : Plot} (h : q = { p.plot with buf := q.buf }) (hn : Counts p.cda) : Counts q.cda := by
  rw [h]
  exact hn

/-- The ids. -/
structure IR (F : List Nat) (n : Nat) (r : PlotM × Option (List Nat × List Nat)) (t : Plot × Option (List Nat)) : Prop where
  plot : r.1.plot = t.1
  val : r.2.map (·.2) = t.2
  clean : Clean (blocks (·.1) r.2 ++ F) r.1
  len : ∀ bs l, r.2 = some (bs, l) → bs.length = n

theorem idsOrLoadM_ok {readI : PlotM → Res (OutM (List Nat))} {rI : Plot → Call (List Nat)} (hI : Agrees readI rI) (h1 : One readI)
    {F : List Nat} {p : PlotM} (h : Clean F p) (hn : Counts p.cda) (ids : Option (List Nat)) :
    Rel (IR F (if ids.isSome then 0 else 1)) (idsOrLoadM ids readI p) (idsOrLoad ids rI p.plot) := by
  unfold idsOrLoadM idsOrLoad
  cases ids with
  | some l => exact .ok ⟨rfl, rfl, h, fun bs l e => by cases e; rfl⟩
  | none =>
    have hr := hI h.1
    generalize ha : readI p = a at hr
    generalize rI p.plot = b at hr
    cases hr with
    | ub => exact .ub
    | err => exact .err
    | abort => exact .abort
    | ok hr =>
      rename_i a t
      obtain ⟨p1, o⟩ := a
      obtain ⟨t1, o'⟩ := t
      obtain ⟨g1, g2, g3, g4⟩ := hr
      dsimp only at g1 g2 g3 g4
      subst g1 g3
      simp only [Res.bind_ok]
      cases o with
      | none =>
        obtain ⟨p2, e, hp, hc⟩ := clearM_ok g2
        dsimp only
        rw [e]
        exact .ok ⟨hp, rfl, hc, fun bs l e => by cases e⟩
      | some x =>
        obtain ⟨bi, l⟩ := x
        dsimp only [Option.map_some, Option.bind_some]
        have ho := h1 F p _ bi l h.1 hn ha rfl
        by_cases hl : l = []
        · rw [if_pos hl, if_pos hl]
          have := ho.1 hl
          subst this
          exact .ok ⟨rfl, rfl, clean_of g2 g4, fun bs l e => by cases e⟩
        · rw [if_neg hl, if_neg hl]
          exact .ok ⟨rfl, rfl, clean_of g2 g4, fun bs l e => by cases e; exact ho.2 hl⟩

/-- The connectivity. -/
structure ER (F bi : List Nat) (n : Nat) (r : PlotM × List Nat × Option (List Nat × List Con × Nat))
    (t : Plot × Option (List Con × Nat)) : Prop where
  plot : r.1.plot = t.1
  val : r.2.2.map (·.2) = t.2
  clean : Clean (r.2.1 ++ (blocks (·.1) r.2.2 ++ ((if r.2.2.isSome then bi else []) ++ F))) r.1
  len : r.2.1.length + (blocks (·.1) r.2.2).length = n

theorem consOrLoadM_ok {readE : PlotM → Res (OutM (List Con))} {rE : Plot → Call (List Con)} (hE : Agrees readE rE) (h1 : One readE)
    {F bi : List Nat} {p : PlotM} (h : Clean (bi ++ F) p) (hn : Counts p.cda) (els : Option (List Con)) (num : Nat) :
    Rel (ER F bi (lostCons els bi.length rE p.plot)) (consOrLoadM els num readE bi p) (consOrLoad els num rE p.plot) := by
  unfold consOrLoadM consOrLoad lostCons
  cases els with
  | some l => exact .ok ⟨rfl, rfl, h, rfl⟩
  | none =>
    unfold loadConsM
    have hr := hE h.1
    dsimp only
    generalize ha : readE p = a at hr
    generalize rE p.plot = b at hr
    cases hr with
    | ub => exact .ub
    | err => exact .err
    | abort => exact .abort
    | ok hr =>
      rename_i a t
      obtain ⟨p1, o⟩ := a
      obtain ⟨t1, o'⟩ := t
      obtain ⟨g1, g2, g3, g4⟩ := hr
      dsimp only at g1 g2 g3 g4
      subst g1 g3
      simp only [Res.bind_ok]
      cases o with
      | none =>
        dsimp only
        obtain ⟨m1, e1, k1⟩ := Heap.freeAll (m := p1.mem) (l := bi)
          (L := p1.h.x.own ++ (p1.h.perr.toList ++ (p1.h.dp.toList ++ F))) (D := []) (g2.heap.perm (by
            simp only [blocks, Option.map_none, Option.getD_none]; perms))
        rw [e1]
        simp only [Res.bind_ok]
        obtain ⟨p2, e, hp, hc⟩ := clearM_ok (g2.withMem k1)
        rw [e]
        exact .ok ⟨hp, rfl, hc, rfl⟩
      | some x =>
        obtain ⟨be, l⟩ := x
        dsimp only [Option.map_some, Option.bind_some]
        have ho := h1 _ p _ be l h.1 hn ha rfl
        cases l with
        | nil =>
          rw [if_pos rfl, if_pos rfl]
          have := ho.1 rfl
          subst this
          refine .ok ⟨rfl, rfl, ?_, ?_⟩
          · simpa [blocks] using clean_of g2 g4
          · simp [blocks]
        | cons c l =>
          rw [if_neg (by simp), if_neg (by simp)]
          exact .ok ⟨rfl, rfl, clean_of g2 g4, by simpa [blocks] using ho.2 (by simp)⟩

theorem useAll_ok {m : Mem} {L D : List Nat} (h : Heap m L D) : ∀ l : List Nat, (∀ b ∈ l, b ∈ L) → m.useAll l = .ok ()
  | [], _ => rfl
  | b :: l, hl => by
    unfold Mem.useAll
    rw [h.use (hl b (by simp))]
    exact useAll_ok h l (fun b hb => hl b (by simp [hb]))

theorem Clean.perm {F F' : List Nat} {p : PlotM} (h : Clean F p) (hp : F.Perm F') : Clean F' p := ⟨h.1.perm hp, h.2⟩

/-- The nodes that have been found so far; `F` are the blocks of others. -/
structure NR (F : List Nat) (n : Nat) (r : PlotM × List Nat × List Nat) (t : Plot × List Nat) : Prop where
  plot : r.1.plot = t.1
  val : r.2.2 = t.2
  clean : Clean (r.2.1 ++ F) r.1
  len : r.2.1.length = n

theorem pushFoundM_ok {F bi used : List Nat} {n : Nat} {r : PlotM × List Nat × Option (List Nat × List Con × Nat)}
    {t : Plot × Option (List Con × Nat)} (h : ER F bi n r t) (hu : ∀ b ∈ used, b ∈ F) (cap k : Nat) (nodeIds : Option (List Nat))
    (partIds ids acc : List Nat) :
    Rel (NR F n) (pushFoundM cap k nodeIds partIds bi ids used acc r) (pushFound cap k nodeIds partIds ids acc t) := by
  obtain ⟨p1, lost, o⟩ := r
  obtain ⟨t1, o'⟩ := t
  obtain ⟨g1, g2, g3, g4⟩ := h
  dsimp only at g1 g2 g3 g4
  subst g1 g2
  unfold pushFoundM pushFound
  cases o with
  | none => exact .ok ⟨rfl, rfl, g3, by simpa [blocks] using g4⟩
  | some x =>
    obtain ⟨be, els, num⟩ := x
    dsimp only [Option.map_some]
    simp only [blocks, Option.map_some, Option.getD_some, Option.isSome_some, if_true] at g3 g4
    rw [useAll_ok g3.1.heap _ (by
      intro b hb
      simp only [List.mem_append] at hb ⊢
      rcases hb with hb | hb | hb
      · simp [hu b hb]
      · simp [hb]
      · simp [hb])]
    simp only [Res.bind_ok]
    generalize pushElements cap k nodeIds ids num els partIds acc = x
    cases x with
    | ub => exact .ub
    | err => exact .err
    | abort => exact .abort
    | ok acc' =>
      simp only [Res.bind_ok]
      obtain ⟨m1, e1, k1⟩ := Heap.freeAll (m := p1.mem) (l := bi)
        (L := p1.h.x.own ++ (p1.h.perr.toList ++ (p1.h.dp.toList ++ ((lost ++ be) ++ F)))) (D := []) (g3.1.heap.perm (by perms))
      rw [e1]
      exact .ok ⟨rfl, rfl, g3.withMem k1, by simpa using g4⟩

theorem addPartNodesM_ok {readI : PlotM → Res (OutM (List Nat))} {readE : PlotM → Res (OutM (List Con))}
    {rI : Plot → Call (List Nat)} {rE : Plot → Call (List Con)} (hI : Agrees readI rI) (hE : Agrees readE rE) (o1 : One readI)
    (o2 : One readE) (k1 : Keeps rI) {F used : List Nat} {x : PlotM × List Nat × List Nat} (h : Clean (x.2.1 ++ F) x.1)
    (hn : Counts x.1.cda) (hu : ∀ b ∈ used, b ∈ F) (cap k : Nat) (nodeIds : Option (List Nat)) (partIds : List Nat)
    (ids : Option (List Nat)) (els : Option (List Con)) :
    Rel (NR F (x.2.1.length + lostKind partIds ids els rI rE x.1.plot))
      (addPartNodesM cap k nodeIds used partIds ids els readI readE x)
      (addPartNodes cap k nodeIds partIds ids els rI rE x.1.plot x.2.2) := by
  by_cases h0 : partIds = []
  · unfold addPartNodesM addPartNodes lostKind
    rw [if_pos h0, if_pos h0, if_pos h0]
    exact .ok ⟨rfl, rfl, h, rfl⟩
  · rw [addPartNodes_eq _ _ _ _ _ _ _ _ _ _ h0]
    unfold addPartNodesM lostKind
    rw [if_neg h0, if_neg h0]
    have hr := idsOrLoadM_ok hI o1 h hn ids
    generalize idsOrLoadM ids readI x.1 = a at hr
    generalize hb : idsOrLoad ids rI x.1.plot = b at hr
    cases hr with
    | ub => exact .ub
    | err => exact .err
    | abort => exact .abort
    | ok hr =>
      rename_i a t
      obtain ⟨p1, o⟩ := a
      obtain ⟨t1, o'⟩ := t
      obtain ⟨g1, g2, g3, g4⟩ := hr
      dsimp only at g1 g2 g3 g4
      subst g1 g2
      simp only [Res.bind_ok]
      unfold withIds
      have hk : p1.plot = { x.1.plot with buf := p1.plot.buf } ∧
          (match ids with
            | some _ => lostCons els 0 rE x.1.plot
            | none =>
              match rI x.1.plot with
              | .ok (q, some (_ :: _)) => lostCons els 1 rE q
              | _ => 0) = (match o with
            | none => 0
            | some y => lostCons els y.1.length rE p1.plot) := by
        unfold idsOrLoad at hb
        cases ids with
        | some l =>
          simp only [Res.ok.injEq, Prod.mk.injEq] at hb
          obtain ⟨hb1, hb2⟩ := hb
          cases o with
          | none => cases hb2
          | some y =>
            refine ⟨by rw [← hb1], ?_⟩
            dsimp only
            rw [show y.1.length = 0 from g4 y.1 y.2 rfl, hb1]
        | none =>
          obtain ⟨⟨q, v⟩, hv, hb⟩ := bindRes_inv hb
          simp only [Res.ok.injEq, Prod.mk.injEq] at hb
          obtain ⟨hb1, hb2⟩ := hb
          have := k1 _ _ _ hv
          rw [hb1] at this
          refine ⟨this, ?_⟩
          dsimp only
          rw [hv]
          subst hb1
          rcases v with _ | _ | ⟨i, l⟩
          · cases o with
            | none => rfl
            | some y => cases hb2
          · cases o with
            | none => rfl
            | some y => cases hb2
          · cases o with
            | none => cases hb2
            | some y =>
              dsimp only
              rw [show y.1.length = 1 from g4 y.1 y.2 rfl]
      rw [hk.2]
      cases o with
      | none => exact .ok ⟨rfl, rfl, g3, rfl⟩
      | some y =>
        obtain ⟨bi, l⟩ := y
        dsimp only [Option.map_some]
        have hr2 := consOrLoadM_ok hE o2 (F := x.2.1 ++ F) (bi := bi) g3 (cda_of hk.1 hn) els l.length
        generalize consOrLoadM els l.length readE bi p1 = a at hr2
        generalize consOrLoad els l.length rE p1.plot = b at hr2
        cases hr2 with
        | ub => exact .ub
        | err => exact .err
        | abort => exact .abort
        | ok hr2 =>
          simp only [Res.bind_ok]
          have hr3 := pushFoundM_ok (used := used) hr2 (fun b hb => by simp [hu b hb]) cap k nodeIds partIds l x.2.2
          generalize pushFoundM cap k nodeIds partIds bi l used x.2.2 _ = a at hr3
          generalize pushFound cap k nodeIds partIds l x.2.2 _ = b at hr3
          cases hr3 with
          | ub => exact .ub
          | err => exact .err
          | abort => exact .abort
          | ok hr3 =>
            rename_i a t
            obtain ⟨p2, lo, ac⟩ := a
            obtain ⟨t2, ac'⟩ := t
            obtain ⟨f1, f2, f3, f4⟩ := hr3
            exact .ok ⟨f1, f2, f3.perm (by dsimp only; perms), by
              dsimp only at f4 ⊢
              rw [List.length_append, f4]⟩

/-! ## Keeping the control words -/

theorem keeps_trans {p q r : Plot} (h1 : q = { p with buf := q.buf }) (h2 : r = { q with buf := r.buf }) :
    r = { p with buf := r.buf } := by
  rw [h2, h1]

theorem addPartNodes_keeps {rI : Plot → Call (List Nat)} {rE : Plot → Call (List Con)} (k1 : Keeps rI) (k2 : Keeps rE)
    {cap k : Nat} {nodeIds : Option (List Nat)} {partIds : List Nat} {ids : Option (List Nat)} {els : Option (List Con)}
    {p q : Plot} {acc l : List Nat} (h : addPartNodes cap k nodeIds partIds ids els rI rE p acc = .ok (q, l)) :
    q = { p with buf := q.buf } := by
  by_cases h0 : partIds = []
  · unfold addPartNodes at h
    rw [if_pos h0] at h
    cases h
    rfl
  · rw [addPartNodes_eq _ _ _ _ _ _ _ _ _ _ h0] at h
    obtain ⟨⟨p1, o⟩, h1, h2⟩ := bindRes_inv h
    have e1 : p1 = { p with buf := p1.buf } := by
      unfold idsOrLoad at h1
      cases ids with
      | some l => cases h1; rfl
      | none =>
        obtain ⟨⟨q1, v⟩, h3, h4⟩ := bindRes_inv h1
        cases h4
        exact k1 _ _ _ h3
    unfold withIds at h2
    cases o with
    | none => cases h2; exact e1
    | some l1 =>
      obtain ⟨⟨p2, o2⟩, h3, h4⟩ := bindRes_inv h2
      have e2 : p2 = { p1 with buf := p2.buf } := by
        unfold consOrLoad at h3
        cases els with
        | some l => cases h3; rfl
        | none =>
          obtain ⟨⟨q1, v⟩, h5, h6⟩ := bindRes_inv h3
          cases h6
          exact k2 _ _ _ h5
      unfold pushFound at h4
      cases o2 with
      | none => cases h4; exact keeps_trans e1 e2
      | some y =>
        obtain ⟨ac, h5, h6⟩ := bindRes_inv h4
        cases h6
        exact keeps_trans e1 e2

theorem keeps_ids {f : Plot → Nat} {g : Plot → Nat} : Keeps (fun p => readIds p (f p) (g p)) := fun _ _ _ h => readIds_same h

theorem keeps_solids : Keeps readSolidElements := fun p q o h => by
  unfold readSolidElements at h
  split at h
  · cases h; rfl
  · exact map_same h

theorem keeps_thicks : Keeps readThickElements := fun p q o h => by
  unfold readThickElements at h
  split at h
  · cases h; rfl
  · exact map_same h

theorem keeps_beams : Keeps readBeamElements := fun p q o h => by
  unfold readBeamElements at h
  split at h
  · cases h; rfl
  · exact map_same h

theorem keeps_shells : Keeps readShellElements := fun p q o h => by
  unfold readShellElements at h
  split at h
  · cases h; rfl
  · exact map_same h

/-! ## Specification: how much is lost -/

/-- Specification: one table. -/
def missingOne (ids : List (Nat × Nat)) (cons : Option (List Con)) : Nat := if ids ≠ [] ∧ cons = none then 1 else 0

/-- Specification: the number of kinds of elements that the part has and whose connectivity the caller does not pass. -/
def missing (g : Given) (part : Part) : Nat :=
  missingOne part.solids g.solids + missingOne part.beams g.beams + missingOne part.shells g.shells +
    missingOne part.thick g.thick

/-- Specification: `part` is a part of the file; everything that is needed for its nodes can be read. -/
def Whole (p : Plot) (nodeIds : Option (List Nat)) (g : Given) (part : Part) : Prop :=
  ∃ i8 i2 i4 it e8 e2 e4 et m q, Tables p nodeIds g i8 i2 i4 it e8 e2 e4 et ∧ readPart p m = .ok (q, some part)

theorem lostKind_le (l : List (Nat × Nat)) (ids : Option (List Nat)) (els : Option (List Con)) (rI : Plot → Call (List Nat))
    (rE : Plot → Call (List Con)) (p : Plot) : lostKind (l.map (·.2)) ids els rI rE p ≤ missingOne l els := by
  have hc : ∀ n p, n ≤ 1 → lostCons els n rE p ≤ (if els = none then 1 else 0) := by
    intro n p hn
    unfold lostCons
    cases els with
    | some l => exact Nat.le_refl _
    | none => dsimp only; rw [if_pos rfl]; split <;> omega
  unfold lostKind missingOne
  by_cases h0 : l = []
  · rw [if_pos (by rw [h0]; rfl)]; exact Nat.zero_le _
  · rw [if_neg (by simpa using h0)]
    simp only [ne_eq, h0, not_false_eq_true, true_and]
    cases ids with
    | some x => exact hc 0 p (by omega)
    | none =>
      dsimp only
      split
      · exact hc 1 _ (by omega)
      · exact Nat.zero_le _

theorem lostKind_eq {m : Nat} {p : Plot} {i : List Nat} {e : List Con} {ids : Option (List Nat)} {els : Option (List Con)}
    {rI : Plot → Call (List Nat)} {rE : Plot → Call (List Con)} (hi : rI p = .ok (p, some i)) (he : rE p = .ok (p, some e))
    (hl : e.length = i.length) :
    lostKind ((members m e i).map (·.2)) ids els rI rE p = missingOne (members m e i) els := by
  unfold lostKind missingOne
  by_cases h0 : members m e i = []
  · rw [if_pos (by rw [h0]; rfl), if_neg (by simp [h0])]
  · rw [if_neg (by simpa using h0)]
    simp only [ne_eq, h0, not_false_eq_true, true_and]
    have hene : e ≠ [] := by rintro rfl; exact h0 rfl
    have hine : i ≠ [] := by rintro rfl; exact hene (by simpa using hl)
    have hc : ∀ n, lostCons els n rE p = (if els = none then 1 else 0) := by
      intro n
      unfold lostCons
      cases els with
      | some l => rfl
      | none =>
        dsimp only
        rw [he]
        cases e with
        | nil => exact absurd rfl hene
        | cons a e => rfl
    cases ids with
    | some x => exact hc 0
    | none =>
      dsimp only
      rw [hi]
      cases i with
      | nil => exact absurd rfl hine
      | cons a i => exact hc 1

/-! ## The nodes of a part -/

/-- The number of lost blocks. -/
def LostBy (p : Plot) (nodeIds : Option (List Nat)) (g : Given) (part : Part) (n : Nat) : Prop :=
  n ≤ missing g part ∧ (Whole p nodeIds g part → n = missing g part)

theorem lostBy_of {p p1 p2 p3 : Plot} {nodeIds : Option (List Nat)} {g : Given} {part : Part} {a1 a2 a3 : List Nat}
    (h1 : addPartNodes (partNodeCap part) 8 nodeIds (part.solids.map (·.2)) g.solidIds g.solids readSolidIds readSolidElements p []
      = .ok (p1, a1))
    (h2 : addPartNodes (partNodeCap part) 2 nodeIds (part.beams.map (·.2)) g.beamIds g.beams readBeamIds readBeamElements p1 a1
      = .ok (p2, a2))
    (h3 : addPartNodes (partNodeCap part) 4 nodeIds (part.shells.map (·.2)) g.shellIds g.shells readShellIds readShellElements p2 a2
      = .ok (p3, a3)) :
    LostBy p nodeIds g part (lostKind (part.solids.map (·.2)) g.solidIds g.solids readSolidIds readSolidElements p +
      lostKind (part.beams.map (·.2)) g.beamIds g.beams readBeamIds readBeamElements p1 +
      lostKind (part.shells.map (·.2)) g.shellIds g.shells readShellIds readShellElements p2 +
      lostKind (part.thick.map (·.2)) g.thickIds g.thick readThickIds readThickElements p3) := by
  constructor
  · have b1 := lostKind_le part.solids g.solidIds g.solids readSolidIds readSolidElements p
    have b2 := lostKind_le part.beams g.beamIds g.beams readBeamIds readBeamElements p1
    have b3 := lostKind_le part.shells g.shellIds g.shells readShellIds readShellElements p2
    have b4 := lostKind_le part.thick g.thickIds g.thick readThickIds readThickElements p3
    unfold missing
    omega
  · rintro ⟨i8, i2, i4, it, e8, e2, e4, et, m, q', T, hp⟩
    have hpart := T.part hp
    have same : ∀ {rI : Plot → Call (List Nat)} {rE : Plot → Call (List Con)} {i : List Nat} {e : List Con} {cap k : Nat}
        {ids : Option (List Nat)} {els : Option (List Con)} {pids acc l : List Nat} {q : Plot}, rI p = .ok (p, some i) →
        rE p = .ok (p, some e) → addPartNodes cap k nodeIds pids ids els rI rE p acc = .ok (q, l) → q = p := by
      intro rI rE i e cap k ids els pids acc l q hi he h
      by_cases h0 : pids = []
      · unfold addPartNodes at h
        rw [if_pos h0] at h
        cases h
        rfl
      · rw [addPartNodes_eq _ _ _ _ _ _ _ _ _ _ h0] at h
        obtain ⟨⟨p1, o⟩, h1, h2⟩ := bindRes_inv h
        have e1 : p1 = p := by
          unfold idsOrLoad at h1
          cases ids with
          | some l => cases h1; rfl
          | none =>
            dsimp only at h1
            rw [hi] at h1
            cases h1
            rfl
        subst e1
        unfold withIds at h2
        cases o with
        | none => cases h2; rfl
        | some l1 =>
          obtain ⟨⟨p2, o2⟩, h3, h4⟩ := bindRes_inv h2
          have e2 : p2 = p1 := by
            unfold consOrLoad at h3
            cases els with
            | some l => cases h3; rfl
            | none =>
              dsimp only at h3
              rw [he] at h3
              cases h3
              rfl
          unfold pushFound at h4
          cases o2 with
          | none => cases h4; exact e2
          | some y =>
            obtain ⟨ac, h5, h6⟩ := bindRes_inv h4
            cases h6
            exact e2
    have s1 := same T.h8 T.h8' h1
    subst s1
    have s2 := same T.h2 T.h2' h2
    subst s2
    have s3 := same T.h4 T.h4' h3
    subst s3
    rw [hpart]
    unfold missing
    dsimp only
    rw [lostKind_eq T.h8 T.h8' T.l8, lostKind_eq T.h2 T.h2' T.l2, lostKind_eq T.h4 T.h4' T.l4, lostKind_eq T.ht T.ht' T.lt]

/-- The nodes of a part. -/
structure PR (F : List Nat) (p : Plot) (P : Nat → Prop) (r : PlotM × List Nat × List Nat) (t : Plot × List Nat) : Prop where
  plot : r.1.plot = t.1
  val : r.2.2 = t.2
  clean : Clean (r.2.1 ++ F) r.1
  len : P r.2.1.length
  keep : t.1 = { p with buf := t.1.buf }

theorem partNodesM_ok {F used : List Nat} {p : PlotM} (h : Clean F p) (hn : Counts p.cda) (hu : ∀ b ∈ used, b ∈ F)
    (nodeIds : Option (List Nat)) (g : Given) (part : Part) :
    Rel (PR F p.plot (LostBy p.plot nodeIds g part)) (partNodesM nodeIds used g part p) (partNodes nodeIds g p.plot part) := by
  unfold partNodesM partNodes
  dsimp only
  have r1 := addPartNodesM_ok (x := (p, [], [])) (rI := readSolidIds) (rE := readSolidElements) (readI := readSolidIdsM)
    (readE := readSolidElementsM) (fun h => readIdsM_ok h _ _) (fun h => readSolidElementsM_ok h) one_solidIds one_solids
    keeps_ids h hn hu (partNodeCap part) 8 nodeIds (part.solids.map (·.2)) g.solidIds g.solids
  dsimp only at r1
  generalize addPartNodesM _ 8 nodeIds used _ g.solidIds g.solids readSolidIdsM readSolidElementsM _ = a1 at r1 ⊢
  generalize hb1 : addPartNodes _ 8 nodeIds _ g.solidIds g.solids readSolidIds readSolidElements _ _ = b1 at r1 ⊢
  cases r1 with
  | ub => exact .ub
  | err => exact .err
  | abort => exact .abort
  | ok r1 =>
  rename_i x1 t1
  obtain ⟨p1, l1, ac1⟩ := x1
  obtain ⟨q1, ac1'⟩ := t1
  obtain ⟨g1, g2, g3, g4⟩ := r1
  dsimp only at g1 g2 g3 g4
  subst g1 g2
  have k1 := addPartNodes_keeps keeps_ids keeps_solids hb1
  simp only [Res.bind_ok]
  have r2 := addPartNodesM_ok (x := (p1, l1, ac1)) (rI := readBeamIds) (rE := readBeamElements) (readI := readBeamIdsM)
    (readE := readBeamElementsM) (fun h => readIdsM_ok h _ _) (fun h => readBeamElementsM_ok h) one_beamIds one_beams
    keeps_ids g3 (cda_of k1 hn) hu (partNodeCap part) 2 nodeIds (part.beams.map (·.2)) g.beamIds g.beams
  dsimp only at r2
  generalize addPartNodesM _ 2 nodeIds used _ g.beamIds g.beams readBeamIdsM readBeamElementsM _ = a2 at r2 ⊢
  generalize hb2 : addPartNodes _ 2 nodeIds _ g.beamIds g.beams readBeamIds readBeamElements _ _ = b2 at r2 ⊢
  cases r2 with
  | ub => exact .ub
  | err => exact .err
  | abort => exact .abort
  | ok r2 =>
  rename_i x2 t2
  obtain ⟨p2, l2, ac2⟩ := x2
  obtain ⟨q2, ac2'⟩ := t2
  obtain ⟨g1, g2, g3, g5⟩ := r2
  dsimp only at g1 g2 g3 g5
  subst g1 g2
  have k2 := keeps_trans k1 (addPartNodes_keeps keeps_ids keeps_beams hb2)
  simp only [Res.bind_ok]
  have r3 := addPartNodesM_ok (x := (p2, l2, ac2)) (rI := readShellIds) (rE := readShellElements) (readI := readShellIdsM)
    (readE := readShellElementsM) (fun h => readIdsM_ok h _ _) (fun h => readShellElementsM_ok h) one_shellIds one_shells
    keeps_ids g3 (cda_of k2 hn) hu (partNodeCap part) 4 nodeIds (part.shells.map (·.2)) g.shellIds g.shells
  dsimp only at r3
  generalize addPartNodesM _ 4 nodeIds used _ g.shellIds g.shells readShellIdsM readShellElementsM _ = a3 at r3 ⊢
  generalize hb3 : addPartNodes _ 4 nodeIds _ g.shellIds g.shells readShellIds readShellElements _ _ = b3 at r3 ⊢
  cases r3 with
  | ub => exact .ub
  | err => exact .err
  | abort => exact .abort
  | ok r3 =>
  rename_i x3 t3
  obtain ⟨p3, l3, ac3⟩ := x3
  obtain ⟨q3, ac3'⟩ := t3
  obtain ⟨g1, g2, g3, g6⟩ := r3
  dsimp only at g1 g2 g3 g6
  subst g1 g2
  have k3 := keeps_trans k2 (addPartNodes_keeps keeps_ids keeps_shells hb3)
  simp only [Res.bind_ok]
  have r4 := addPartNodesM_ok (x := (p3, l3, ac3)) (rI := readThickIds) (rE := readThickElements) (readI := readThickIdsM)
    (readE := readThickElementsM) (fun h => readIdsM_ok h _ _) (fun h => readThickElementsM_ok h) one_thickIds one_thicks
    keeps_ids g3 (cda_of k3 hn) hu (partNodeCap part) 8 nodeIds (part.thick.map (·.2)) g.thickIds g.thick
  dsimp only at r4
  generalize addPartNodesM _ 8 nodeIds used _ g.thickIds g.thick readThickIdsM readThickElementsM _ = a4 at r4 ⊢
  generalize hb4 : addPartNodes _ 8 nodeIds _ g.thickIds g.thick readThickIds readThickElements _ _ = b4 at r4 ⊢
  cases r4 with
  | ub => exact .ub
  | err => exact .err
  | abort => exact .abort
  | ok r4 =>
  rename_i x4 t4
  obtain ⟨p4, l4, ac4⟩ := x4
  obtain ⟨q4, ac4'⟩ := t4
  obtain ⟨g1, g2, g3, g7⟩ := r4
  dsimp only at g1 g2 g3 g7
  subst g1 g2
  have k4 := keeps_trans k3 (addPartNodes_keeps keeps_ids keeps_thicks hb4)
  refine .ok ⟨rfl, rfl, g3, ?_, k4⟩
  dsimp only
  rw [g7, g6, g5, g4, List.length_nil, Nat.zero_add]
  exact lostBy_of hb1 hb2 hb3

/-- What is known after one of the calls; `P` is about the number of lost blocks. -/
structure QR {α : Type} (F : List Nat) (p : Plot) (P : Nat → Prop) (r : AskM α) (t : Plot × Option α) : Prop where
  plot : r.1.1.plot = t.1
  val : r.1.2.map (·.2) = t.2
  ready : Ready (blocks (·.1) r.1.2 ++ (r.2 ++ F)) r.1.1
  len : P r.2.length
  keep : t.1.cda = p.cda

theorem fitM_ok {m : Mem} {res : Nat} {L : List Nat} (h : Heap m (res :: L) []) (zero : Bool) (cap num : Nat) :
    ∃ m' o, fitM zero cap num res m = .ok (m', o) ∧ Heap m' (o.toList ++ L) [] := by
  unfold fitM shrinkM
  by_cases hc : cap = num
  · rw [if_pos hc]
    exact ⟨m, some res, rfl, h⟩
  · rw [if_neg hc]
    by_cases hz : num = 0 ∧ zero = false
    · rw [if_pos hz]
      obtain ⟨m', e, h'⟩ := Heap.freeOpt (o := some res) h
      rw [e]
      exact ⟨m', none, rfl, h'⟩
    · rw [if_neg hz]
      obtain ⟨m', b, e, h'⟩ := Heap.realloc (o := some res) h
      rw [e]
      exact ⟨m', some b, rfl, h'⟩

/-- The result without memory. -/
def arrayOf (r : Res (Plot × List Nat)) : Res (Plot × Option (List Nat)) := r >>= fun x => .ok (x.1, some x.2)

theorem partArrayM_ok {F bn : List Nat} {p : PlotM} (h : Clean (bn ++ F) p) (hn : Counts p.cda) (zero : Bool)
    (nodeIds : Option (List Nat)) (g : Given) (part : Part) :
    Rel (QR F p.plot (LostBy p.plot nodeIds g part)) (partArrayM zero nodeIds bn g part p)
      (arrayOf (partNodes nodeIds g p.plot part)) := by
  unfold partArrayM arrayOf
  dsimp only
  have hr := partNodesM_ok (F := p.mem.alloc.2 :: (bn ++ F)) (used := p.mem.alloc.2 :: bn) h.alloc hn
    (fun b hb => by
      rcases List.mem_cons.1 hb with rfl | hb
      · simp
      · simp [hb]) nodeIds g part
  rw [withMem_plot] at hr
  generalize partNodesM nodeIds _ g part _ = a at hr
  generalize partNodes nodeIds g p.plot part = b at hr
  cases hr with
  | ub => exact .ub
  | err => exact .err
  | abort => exact .abort
  | ok hr =>
    rename_i x t
    obtain ⟨p1, lost, l⟩ := x
    obtain ⟨t1, l'⟩ := t
    obtain ⟨g1, g2, g3, g4, g5⟩ := hr
    dsimp only at g1 g2 g3 g4 g5
    subst g1 g2
    simp only [Res.bind_ok]
    obtain ⟨m1, e1, k1⟩ := Heap.freeAll (m := p1.mem) (l := bn)
      (L := p.mem.alloc.2 :: (p1.h.x.own ++ (p1.h.perr.toList ++ (p1.h.dp.toList ++ (lost ++ F))))) (D := [])
      (g3.1.heap.perm (by perms))
    rw [e1]
    simp only [Res.bind_ok]
    obtain ⟨m2, o, e2, k2⟩ := fitM_ok k1 zero (partNodeCap part) l.length
    rw [e2]
    refine .ok ⟨rfl, rfl, ?_, g4, same_cda g5⟩
    exact g3.1.withMem (k2.perm (by
      simp only [blocks, Option.map_some, Option.getD_some]
      perms))

theorem partNodeIds_given (l : List Nat) (g : Given) (p : Plot) (part : Part) :
    partNodeIds (some l) g p part = arrayOf (partNodes (some l) g p part) := rfl

/-- Specification: the node ids that are used: those of the caller, or those of the file. -/
def UsedIds (p : Plot) (nodeIds : Option (List Nat)) (l : List Nat) : Prop :=
  nodeIds = some l ∨ (nodeIds = none ∧ readNodeIds p = .ok (p, some l))

/-- The number of lost blocks of `d3plot_part_get_node_ids2`. -/
def LostIds (p : Plot) (nodeIds : Option (List Nat)) (g : Given) (part : Part) (n : Nat) : Prop :=
  n ≤ missing g part ∧ ∀ l, UsedIds p nodeIds l → Whole p (some l) g part → n = missing g part

theorem QR.imp {α : Type} {F : List Nat} {p p' : Plot} {P Q : Nat → Prop} {r : AskM α} {t : Plot × Option α} (h : QR F p P r t)
    (hp : p.cda = p'.cda) (hpq : ∀ n, P n → Q n) : QR F p' Q r t :=
  ⟨h.plot, h.val, h.ready, hpq _ h.len, h.keep.trans hp⟩

theorem partNodeIdsM_ok {F : List Nat} {p : PlotM} (h : Ready F p) (hn : Counts p.cda) (zero : Bool)
    (nodeIds : Option (List Nat)) (g : Given) (part : Part) :
    Rel (QR F p.plot (LostIds p.plot nodeIds g part)) (partNodeIdsM zero nodeIds g part p)
      (partNodeIds nodeIds g p.plot part) := by
  obtain ⟨p0, e, hp, hc⟩ := clearM_ok h
  unfold partNodeIdsM
  have hn0 : Counts p0.plot.cda := by rw [hp]; exact hn
  rw [e, ← hp]
  simp only [Res.bind_ok]
  cases nodeIds with
  | some l =>
    rw [partNodeIds_given]
    have := partArrayM_ok (F := F) (bn := []) hc hn0 zero (some l) g part
    dsimp only
    generalize partArrayM zero (some l) [] g part p0 = a at this
    generalize arrayOf (partNodes (some l) g p0.plot part) = b at this
    cases this with
    | ub => exact .ub
    | err => exact .err
    | abort => exact .abort
    | ok hr =>
      refine .ok (hr.imp rfl (fun n hl => ⟨hl.1, fun l' hu hw => ?_⟩))
      rcases hu with hu | hu
      · cases hu; exact hl.2 hw
      · cases hu.1
  | none =>
    unfold partNodeIds
    have hr := readIdsM_ok hc.1 p0.ptrs.nodeIds p0.cda.raw.numnp
    dsimp only
    generalize hx : readNodeIdsM p0 = a
    unfold readNodeIdsM at hx
    rw [hx] at hr
    generalize hb : readNodeIds p0.plot = b
    unfold readNodeIds at hb
    rw [show readIds p0.plot p0.ptrs.nodeIds p0.cda.raw.numnp = b from hb] at hr
    cases hr with
    | ub => exact .ub
    | err => exact .err
    | abort => exact .abort
    | ok hr =>
      rename_i x t
      obtain ⟨p1, o⟩ := x
      obtain ⟨t1, o'⟩ := t
      obtain ⟨g1, g2, g3, g4⟩ := hr
      dsimp only at g1 g2 g3 g4
      subst g1 g3
      have hk := readIds_same hb
      simp only [Res.bind_ok]
      cases o with
      | none =>
        dsimp only
        obtain ⟨p2, e2, h1, h2, h3⟩ := errM_ok (α := List Nat × List Nat) g2
        rw [e2]
        refine .ok ⟨h1, rfl, h2, ⟨Nat.zero_le _, fun l' hu hw => ?_⟩, same_cda hk⟩
        rcases hu with hu | hu
        · cases hu
        · have hu2 := hu.2
          unfold readNodeIds at hu2
          rw [hb] at hu2
          simp at hu2
      | some y =>
        obtain ⟨bn, l⟩ := y
        dsimp only [Option.map_some]
        have hc1 : Clean (bn ++ F) p1 := clean_of g2 g4
        have := partArrayM_ok hc1 (cda_of hk hn0) zero (some l) g part
        show Rel _ _ (arrayOf (partNodes (some l) g p1.plot part))
        generalize partArrayM zero (some l) bn g part p1 = a at this
        generalize arrayOf (partNodes (some l) g p1.plot part) = b at this
        cases this with
        | ub => exact .ub
        | err => exact .err
        | abort => exact .abort
        | ok hr =>
          refine .ok (hr.imp (same_cda hk) (fun n hl => ⟨hl.1, fun l' hu hw => ?_⟩))
          rcases hu with hu | hu
          · cases hu
          · have hu2 := hu.2
            unfold readNodeIds at hu2
            rw [hb] at hu2
            simp only [Option.map_some, Res.ok.injEq, Prod.mk.injEq, Option.some.injEq] at hu2
            obtain ⟨h5, h6⟩ := hu2
            rw [h5] at hl
            subst h6
            exact hl.2 hw

theorem partNodeIndicesM_ok {F : List Nat} {p : PlotM} (h : Ready F p) (hn : Counts p.cda) (zero : Bool) (g : Given) (part : Part) :
    Rel (QR F p.plot (LostBy p.plot none g part)) (partNodeIndicesM zero g part p) (partNodeIndices g p.plot part) := by
  obtain ⟨p0, e, hp, hc⟩ := clearM_ok h
  unfold partNodeIndicesM
  have hn0 : Counts p0.plot.cda := by rw [hp]; exact hn
  rw [e, ← hp]
  simp only [Res.bind_ok]
  exact partArrayM_ok (F := F) (bn := []) hc hn0 zero none g part

/-- The number without memory. -/
def countOf (r : Res (Plot × Option (List Nat))) : Res (Plot × Option Nat) := r >>= fun x => .ok (x.1, x.2.map (·.length))

theorem partNumNodes_eq (g : Given) (p : Plot) (part : Part) : partNumNodes g p part = countOf (partNodeIndices g p part) := by
  unfold partNumNodes countOf partNodeIndices
  cases partNodes none g p part <;> rfl

theorem partNumNodesM_ok {F : List Nat} {p : PlotM} (h : Ready F p) (hn : Counts p.cda) (zero : Bool) (g : Given) (part : Part) :
    Rel (QR F p.plot (LostBy p.plot none g part)) (partNumNodesM zero g part p) (partNumNodes g p.plot part) := by
  rw [partNumNodes_eq]
  unfold partNumNodesM countOf
  have hr := partNodeIndicesM_ok h hn zero g part
  generalize partNodeIndicesM zero g part p = a at hr
  generalize partNodeIndices g p.plot part = b at hr
  cases hr with
  | ub => exact .ub
  | err => exact .err
  | abort => exact .abort
  | ok hr =>
    rename_i x t
    obtain ⟨⟨p1, o⟩, lost⟩ := x
    obtain ⟨t1, o'⟩ := t
    obtain ⟨g1, g2, g3, g4, g5⟩ := hr
    dsimp only at g1 g2 g3 g4 g5
    subst g1 g2
    simp only [Res.bind_ok]
    cases o with
    | none => exact .ok ⟨rfl, rfl, g3, g4, g5⟩
    | some y =>
      obtain ⟨bs, l⟩ := y
      dsimp only [Option.map_some]
      obtain ⟨m1, e1, k1⟩ := Heap.freeAll (m := p1.mem) (l := bs)
        (L := p1.h.x.own ++ (p1.h.perr.toList ++ (p1.h.dp.toList ++ (lost ++ F)))) (D := []) (g3.heap.perm (by
          simp only [blocks, Option.map_some, Option.getD_some]; perms))
      rw [e1]
      exact .ok ⟨rfl, rfl, g3.withMem k1, g4, g5⟩

/-! ## Ids of all elements -/

/-- The ids that have been collected. -/
structure KR (F : List Nat) (p : Plot) (r : PlotM × Option (Nat × List Nat)) (t : Plot × Option (List Nat)) : Prop where
  plot : r.1.plot = t.1
  val : r.2.map (·.2) = t.2
  ready : Ready (accBlk r.2 ++ F) r.1
  keep : t.1.cda = p.cda

theorem addKindIdsM_ok {readI : PlotM → Res (OutM (List Nat))} {rI : Plot → Call (List Nat)} (hI : Agrees readI rI) (o1 : One readI)
    (k1 : Keeps rI) {F : List Nat} {p0 : Plot} {x : PlotM × Option (Nat × List Nat)} {y : Plot × Option (List Nat)}
    (h : KR F p0 x y) (hn : Counts p0.cda) :
    Rel (fun r t => KR F p0 r t ∧ r.1.h.perr.isSome = failed rI y.1) (addKindIdsM readI x) (addKindIds rI y) := by
  obtain ⟨p, acc⟩ := x
  obtain ⟨q, acc'⟩ := y
  obtain ⟨h1, h2, h3, h4⟩ := h
  dsimp only at h1 h2 h3 h4
  subst h1 h2
  unfold addKindIdsM addKindIds failed
  dsimp only
  have hr := hI h3
  generalize ha : readI p = a at hr
  generalize hb : rI p.plot = b at hr
  cases hr with
  | ub => exact .ub
  | err => exact .err
  | abort => exact .abort
  | ok hr =>
    rename_i x t
    obtain ⟨p1, o⟩ := x
    obtain ⟨t1, o'⟩ := t
    obtain ⟨g1, g2, g3, g4⟩ := hr
    dsimp only at g1 g2 g3 g4
    subst g1 g3
    have hk := (same_cda (k1 _ _ _ hb)).trans h4
    simp only [Res.bind_ok]
    rcases o with _ | ⟨bi, _ | ⟨i, l⟩⟩
    · exact .ok ⟨⟨rfl, rfl, g2, hk⟩, g4⟩
    · have ho := o1 _ p _ bi [] h3 (by rw [show p.cda = p.plot.cda from rfl, h4]; exact hn) ha rfl
      have := ho.1 rfl
      subst this
      exact .ok ⟨⟨rfl, rfl, g2, hk⟩, g4⟩
    · dsimp only [Option.map_some]
      unfold insertSortedM
      generalize insertSorted (acc.map (·.2)) (i :: l) = s
      cases s with
      | ub => exact .ub
      | err => exact .err
      | abort => exact .abort
      | ok s =>
        simp only [Res.bind_ok]
        obtain ⟨m1, b, e1, k1⟩ := Heap.realloc (m := p1.mem) (o := acc.map (·.1))
          (L := bi ++ (p1.h.x.own ++ (p1.h.perr.toList ++ (p1.h.dp.toList ++ F)))) (D := []) (g2.heap.perm (by
            simp only [blocks, Option.map_some, Option.getD_some, accBlk]; perms))
        rw [e1]
        simp only [Res.bind_ok]
        obtain ⟨m2, e2, k2⟩ := Heap.freeAll (l := bi)
          (L := b :: (p1.h.x.own ++ (p1.h.perr.toList ++ (p1.h.dp.toList ++ F)))) (k1.perm (by perms))
        rw [e2]
        refine .ok ⟨⟨rfl, rfl, g2.withMem (k2.perm ?_), hk⟩, g4⟩
        simp only [accBlk, Option.map_some, Option.toList_some]
        perms

/-- The four calls without memory. -/
def allIds4 (p : Plot) : Res (Plot × Plot × Option (List Nat)) := do
  let x ← addKindIds readSolidIds (p, none)
  let x ← addKindIds readBeamIds x
  let x ← addKindIds readShellIds x
  let y ← addKindIds readThickIds x
  .ok (x.1, y)

theorem allElementIdsM_ok {F : List Nat} {p : PlotM} (h : Ready F p) (hn : Counts p.cda) :
    Rel (fun r t => KR F p.plot r t.2 ∧ r.1.h.perr.isSome = failed readThickIds t.1) (allElementIdsM p) (allIds4 p.plot) := by
  unfold allElementIdsM allIds4
  have r1 := addKindIdsM_ok (readI := readSolidIdsM) (rI := readSolidIds) (fun h => readIdsM_ok h _ _) one_solidIds keeps_ids
    (x := (p, none)) (y := (p.plot, none)) (F := F) ⟨rfl, rfl, h, rfl⟩ hn
  generalize addKindIdsM readSolidIdsM _ = a at r1
  generalize addKindIds readSolidIds _ = b at r1
  cases r1 with
  | ub => exact .ub
  | err => exact .err
  | abort => exact .abort
  | ok r1 =>
  simp only [Res.bind_ok]
  have r2 := addKindIdsM_ok (readI := readBeamIdsM) (rI := readBeamIds) (fun h => readIdsM_ok h _ _) one_beamIds keeps_ids r1.1 hn
  generalize addKindIdsM readBeamIdsM _ = a at r2
  generalize addKindIds readBeamIds _ = b at r2
  cases r2 with
  | ub => exact .ub
  | err => exact .err
  | abort => exact .abort
  | ok r2 =>
  simp only [Res.bind_ok]
  have r3 := addKindIdsM_ok (readI := readShellIdsM) (rI := readShellIds) (fun h => readIdsM_ok h _ _) one_shellIds keeps_ids r2.1 hn
  generalize addKindIdsM readShellIdsM _ = a at r3
  generalize addKindIds readShellIds _ = b at r3
  cases r3 with
  | ub => exact .ub
  | err => exact .err
  | abort => exact .abort
  | ok r3 =>
  simp only [Res.bind_ok]
  have r4 := addKindIdsM_ok (readI := readThickIdsM) (rI := readThickIds) (fun h => readIdsM_ok h _ _) one_thickIds keeps_ids r3.1 hn
  generalize addKindIdsM readThickIdsM _ = a at r4
  generalize addKindIds readThickIds _ = b at r4
  cases r4 with
  | ub => exact .ub
  | err => exact .err
  | abort => exact .abort
  | ok r4 => exact .ok r4

/-- Some result of `readAllElementIds` as the result of a call. -/
def someOf (r : Res (Plot × List Nat)) : Res (Plot × Option (List Nat)) := r >>= fun x => .ok (x.1, some x.2)

theorem all_eq (p : Plot) : someOf (readAllElementIds p) = allIds4 p >>= fun x => .ok (x.2.1, some (x.2.2.getD [])) := by
  unfold someOf readAllElementIds allIds4
  rcases addKindIds readSolidIds (p, none) with x | _ | _ | _ <;> try rfl
  simp only [Res.bind_ok]
  rcases addKindIds readBeamIds x with x | _ | _ | _ <;> try rfl
  simp only [Res.bind_ok]
  rcases addKindIds readShellIds x with x | _ | _ | _ <;> try rfl
  simp only [Res.bind_ok]
  rcases addKindIds readThickIds x with x | _ | _ | _ <;> rfl

theorem cppAll_eq (p : Plot) : cppReadAllElementIds p =
    allIds4 p >>= fun x => .ok (x.2.1, if failed readThickIds x.1 then none else some (x.2.2.getD [])) := by
  unfold cppReadAllElementIds allIds4
  rcases addKindIds readSolidIds (p, none) with x | _ | _ | _ <;> try rfl
  simp only [Res.bind_ok]
  rcases addKindIds readBeamIds x with x | _ | _ | _ <;> try rfl
  simp only [Res.bind_ok]
  rcases addKindIds readShellIds x with x | _ | _ | _ <;> try rfl
  simp only [Res.bind_ok]
  rcases addKindIds readThickIds x with x | _ | _ | _ <;> rfl

theorem readAllElementIdsM_ok {F : List Nat} {p : PlotM} (h : Ready F p) (hn : Counts p.cda) :
    Rel (QR F p.plot (· = 0)) (readAllElementIdsM p) (someOf (readAllElementIds p.plot)) := by
  rw [all_eq]
  unfold readAllElementIdsM
  have hr := allElementIdsM_ok h hn
  generalize allElementIdsM p = a at hr
  generalize allIds4 p.plot = b at hr
  cases hr with
  | ub => exact .ub
  | err => exact .err
  | abort => exact .abort
  | ok hr =>
    obtain ⟨⟨h1, h2, h3, h4⟩, -⟩ := hr
    exact .ok ⟨h1, by dsimp only; rw [Option.map_some, h2], h3, rfl, h4⟩

theorem cppReadAllElementIdsM_ok {F : List Nat} {p : PlotM} (h : Ready F p) (hn : Counts p.cda) :
    Rel (fun r t => QR F p.plot (· ≤ 1) r t ∧ (t.2.isSome = true → r.2 = [])) (cppReadAllElementIdsM p)
      (cppReadAllElementIds p.plot) := by
  rw [cppAll_eq]
  unfold cppReadAllElementIdsM
  have hr := allElementIdsM_ok h hn
  generalize allElementIdsM p = a at hr
  generalize allIds4 p.plot = b at hr
  cases hr with
  | ub => exact .ub
  | err => exact .err
  | abort => exact .abort
  | ok hr =>
    rename_i x t
    obtain ⟨⟨h1, h2, h3, h4⟩, h5⟩ := hr
    simp only [Res.bind_ok]
    rw [h5]
    cases failed readThickIds t.1 with
    | true =>
      refine .ok ⟨⟨h1, rfl, h3, ?_, h4⟩, fun hh => by cases hh⟩
      dsimp only [accBlk]
      cases x.2 with
      | none => exact Nat.zero_le _
      | some v => exact Nat.le_refl _
    | false => exact .ok ⟨⟨h1, by dsimp only; rw [Option.map_some, h2]; rfl, h3, Nat.zero_le _, h4⟩, fun _ => rfl⟩

/-! ## Specification: the calls of a user -/

/-- Specification: the calls: those of `Op`, the nodes of a part (the tables that are not passed are `none`), and the ids of all elements (in C
and in C++). -/
inductive Ask
  | read (o : Op)
  | nodeIds (ids : Option (List Nat)) (g : Given) (part : Part)
  | nodeIndices (g : Given) (part : Part)
  | numNodes (g : Given) (part : Part)
  | allIds
  | cppAllIds

/-- Specification: a call without memory. -/
def Ask.run (p : Plot) : Ask → Res (Plot × Option Val)
  | .read o => o.run p
  | .nodeIds ids g part => mapVal .words (partNodeIds ids g p part)
  | .nodeIndices g part => mapVal .words (partNodeIndices g p part)
  | .numNodes g part => mapVal (fun n => .words [n]) (partNumNodes g p part)
  | .allIds => mapVal .words (someOf (readAllElementIds p))
  | .cppAllIds => mapVal .words (cppReadAllElementIds p)

/-- Specification: the result of a call as a value. -/
def mapAsk {α : Type} (f : α → Val) (r : Res (AskM α)) : Res (AskM Val) :=
  r >>= fun x => .ok ((x.1.1, x.1.2.map (fun y => (y.1, f y.2))), x.2)

/-- Specification: the same calls with memory: the blocks that the caller gets and the values, and the blocks that are lost. -/
def Ask.runM (zero : Bool) (p : PlotM) : Ask → Res (AskM Val)
  | .read o => o.runM p >>= fun x => .ok (x, [])
  | .nodeIds ids g part => mapAsk .words (partNodeIdsM zero ids g part p)
  | .nodeIndices g part => mapAsk .words (partNodeIndicesM zero g part p)
  | .numNodes g part => mapAsk (fun n => .words [n]) (partNumNodesM zero g part p)
  | .allIds => mapAsk .words (readAllElementIdsM p)
  | .cppAllIds => mapAsk .words (cppReadAllElementIdsM p)

/-- Specification: some calls without memory. -/
def askAll : List Ask → Plot → Res (List (Option Val))
  | [], _ => .ok []
  | o :: ops, p => do
    let r ← o.run p
    let l ← askAll ops r.1
    .ok (r.2 :: l)

/-- Specification: some calls: the file, the blocks that the caller got, the blocks that are lost, and the results. -/
def askAllM (zero : Bool) : List Ask → PlotM → Res (PlotM × List Nat × List Nat × List (Option Val))
  | [], p => .ok (p, [], [], [])
  | o :: ops, p => do
    let r ← o.runM zero p
    let l ← askAllM zero ops r.1.1
    .ok (l.1, blocks (·.1) r.1.2 ++ l.2.1, r.2 ++ l.2.2.1, r.1.2.map (·.2) :: l.2.2.2)

/-- Specification: open a file and call functions; `none`: opening failed. -/
def askSession (files : List Bytes) (asks : List Ask) : Res (Option (List (Option Val))) :=
  match openPlot files with
  | .ok p => askAll asks p >>= fun l => .ok (some l)
  | .err => .ok none
  | .ub => .ub
  | .abort => .abort

/-- Specification: the same with memory: the file, the blocks that the caller got, the lost blocks, and the results. -/
def askSessionM (abs zero : Bool) (m : Mem) (files : List Bytes) (asks : List Ask) :
    Res (Han × List Nat × List Nat × Option (List (Option Val))) := do
  let r ← openPlotM abs m files
  match r.2 with
  | none => .ok (r.1, [], [], none)
  | some v => do
    let t ← askAllM zero asks (r.1.opened v)
    .ok (t.1.h, t.2.1, t.2.2.1, some t.2.2.2)

/-- Specification: how many blocks a call loses at most. -/
def Ask.most : Ask → Nat
  | .read _ => 0
  | .nodeIds _ g part => missing g part
  | .nodeIndices g part => missing g part
  | .numNodes g part => missing g part
  | .allIds => 0
  | .cppAllIds => 1

/-- Specification: the sum over some calls. -/
def mostAll (asks : List Ask) : Nat := (asks.map Ask.most).sum

/-- Specification: the call asks for the nodes of a part of the file, and everything that is needed for them can be read. -/
def Answerable (p : Plot) : Ask → Prop
  | .nodeIds ids g part => ∃ l, readNodeIds p = .ok (p, some l) ∧ (ids = none ∨ ids = some l) ∧ Whole p (some l) g part
  | .nodeIndices g part => Whole p none g part
  | .numNodes g part => Whole p none g part
  | _ => False

/-! ## Sessions -/

/-- One call. -/
structure Asked (F : List Nat) (p : Plot) (a : Ask) (r : AskM Val) (t : Plot × Option Val) : Prop where
  plot : r.1.1.plot = t.1
  val : r.1.2.map (·.2) = t.2
  ready : Ready (blocks (·.1) r.1.2 ++ (r.2 ++ F)) r.1.1
  most : r.2.length ≤ a.most
  exactly : Answerable p a → r.2.length = a.most ∧ t.1 = p
  keep : t.1.cda = p.cda

theorem QR.asked {α : Type} {F : List Nat} {p : Plot} {P : Nat → Prop} {x : Res (AskM α)} {y : Res (Plot × Option α)} {a : Ask}
    {f : α → Val} (h : Rel (QR F p P) x y) (h1 : ∀ n, P n → n ≤ a.most)
    (h2 : ∀ n q o, P n → y = .ok (q, o) → Answerable p a → n = a.most ∧ q = p) :
    Rel (Asked F p a) (mapAsk f x) (mapVal f y) := by
  cases h with
  | ub => exact .ub
  | err => exact .err
  | abort => exact .abort
  | ok h =>
    rename_i r t
    obtain ⟨⟨p1, o⟩, lost⟩ := r
    obtain ⟨t1, o'⟩ := t
    obtain ⟨g1, g2, g3, g4, g5⟩ := h
    dsimp only at g1 g2 g3 g4 g5
    subst g1 g2
    have e := h2 _ _ _ g4 rfl
    cases o with
    | none => exact .ok ⟨rfl, rfl, g3, h1 _ g4, e, g5⟩
    | some v => exact .ok ⟨rfl, rfl, g3, h1 _ g4, e, g5⟩

theorem whole_same {p q : Plot} {nodeIds : Option (List Nat)} {g : Given} {part : Part} {l : List Nat}
    (hw : Whole p nodeIds g part) (h : partNodes nodeIds g p part = .ok (q, l)) : q = p := by
  obtain ⟨i8, i2, i4, it, e8, e2, e4, et, m, q', T, hp⟩ := hw
  obtain ⟨l', h1, -⟩ := partNodes_spec T m
  rw [← T.part hp, h] at h1
  cases h1
  rfl

theorem ask_ok {F : List Nat} {p : PlotM} (h : Ready F p) (hn : Counts p.cda) (zero : Bool) (a : Ask) :
    Rel (Asked F p.plot a) (a.runM zero p) (a.run p.plot) := by
  cases a with
  | read o =>
    have hr := op_ok h hn o
    have hk := Kp.run p.plot o
    unfold Ask.runM Ask.run
    dsimp only
    generalize o.runM p = x at hr
    generalize o.run p.plot = y at hr hk
    cases hr with
    | ub => exact .ub
    | err => exact .err
    | abort => exact .abort
    | ok hr => exact .ok ⟨hr.plot, hr.val, hr.ready, Nat.le_refl _, fun h => h.elim, hk _ _ rfl⟩
  | nodeIds ids g part =>
    refine QR.asked (partNodeIdsM_ok h hn zero ids g part) (fun n h => h.1) (fun n q o hP hy hA => ?_)
    obtain ⟨l, hl, hi, hw⟩ := hA
    have hu : UsedIds p.plot ids l := by
      rcases hi with rfl | rfl
      · exact .inr ⟨rfl, hl⟩
      · exact .inl rfl
    refine ⟨hP.2 l hu hw, ?_⟩
    rcases hi with rfl | rfl
    · unfold partNodeIds at hy
      dsimp only at hy
      rw [hl] at hy
      simp only [Res.bind_ok] at hy
      obtain ⟨⟨q', r⟩, h1, h2⟩ := bindRes_inv hy
      cases h2
      exact whole_same hw h1
    · rw [partNodeIds_given] at hy
      obtain ⟨⟨q', r⟩, h1, h2⟩ := bindRes_inv hy
      cases h2
      exact whole_same hw h1
  | nodeIndices g part =>
    refine QR.asked (partNodeIndicesM_ok h hn zero g part) (fun n h => h.1) (fun n q o hP hy hA => ⟨hP.2 hA, ?_⟩)
    obtain ⟨⟨q', r⟩, h1, h2⟩ := bindRes_inv hy
    cases h2
    exact whole_same hA h1
  | numNodes g part =>
    refine QR.asked (a := .numNodes g part) (f := fun n => .words [n]) (partNumNodesM_ok h hn zero g part) (fun n h => h.1) (fun n q o hP hy hA => ⟨hP.2 hA, ?_⟩)
    obtain ⟨⟨q', r⟩, h1, h2⟩ := bindRes_inv hy
    cases h2
    exact whole_same hA h1
  | allIds => exact QR.asked (readAllElementIdsM_ok h hn) (fun n h => Nat.le_of_eq h) (fun n q o hP hy hA => hA.elim)
  | cppAllIds =>
    have hr := cppReadAllElementIdsM_ok h hn
    have hr' : Rel (QR F p.plot (· ≤ 1)) (cppReadAllElementIdsM p) (cppReadAllElementIds p.plot) := by
      generalize cppReadAllElementIdsM p = x at hr
      generalize cppReadAllElementIds p.plot = y at hr
      cases hr with
      | ub => exact .ub
      | err => exact .err
      | abort => exact .abort
      | ok hr => exact .ok hr.1
    exact QR.asked hr' (fun n h => h) (fun n q o hP hy hA => hA.elim)

theorem askAll_ok (zero : Bool) : ∀ (asks : List Ask) {F : List Nat} {p : PlotM}, Ready F p → Counts p.cda →
    Rel (fun r t => r.2.2.2 = t ∧ Ready (r.2.1 ++ (r.2.2.1 ++ F)) r.1 ∧ r.2.2.1.length ≤ mostAll asks ∧
      ((∀ a ∈ asks, Answerable p.plot a) → r.2.2.1.length = mostAll asks)) (askAllM zero asks p) (askAll asks p.plot) := by
  intro asks
  induction asks with
  | nil => intro F p h _; exact .ok ⟨rfl, h, Nat.le_refl _, fun _ => rfl⟩
  | cons a asks ih =>
    intro F p h hn
    unfold askAllM askAll
    have hr := ask_ok h hn zero a
    generalize a.runM zero p = x at hr
    generalize a.run p.plot = y at hr
    cases hr with
    | ub => exact .ub
    | err => exact .err
    | abort => exact .abort
    | ok hr =>
      rename_i x t
      obtain ⟨⟨p1, v⟩, lost⟩ := x
      obtain ⟨t1, v'⟩ := t
      obtain ⟨h1, h2, h3, h4, h5, h6⟩ := hr
      dsimp only at h1 h2 h3 h4 h5 h6
      subst h1 h2
      simp only [Res.bind_ok]
      have hc : Counts p1.cda := by
        rw [show p1.cda = p1.plot.cda from rfl, h6]
        exact hn
      have hl := ih h3 hc
      generalize askAllM zero asks p1 = x at hl
      generalize askAll asks p1.plot = y at hl
      cases hl with
      | ub => exact .ub
      | err => exact .err
      | abort => exact .abort
      | ok hl =>
        rename_i x t
        obtain ⟨p2, bs, ls, l⟩ := x
        obtain ⟨k1, k2, k3, k4⟩ := hl
        dsimp only at k1 k2 k3 k4
        subst k1
        refine .ok ⟨rfl, k2.perm (by dsimp only; perms), ?_, fun hA => ?_⟩
        · simp only [mostAll, List.map_cons, List.sum_cons, List.length_append] at k3 ⊢
          omega
        · have e := h5 (hA a (by simp))
          have e2 := k4 (by rw [e.2]; exact fun a ha => hA a (by simp [ha]))
          simp only [mostAll, List.map_cons, List.sum_cons, List.length_append] at e2 ⊢
          omega

/-- What is known after a session. -/
inductive AskLeft (F : List Nat) (asks : List Ask) (y : Res Plot) : Res (Han × List Nat × List Nat × Option (List (Option Val))) →
    Res (Option (List (Option Val))) → Prop
  | ok {h : Han} {given lost : List Nat} {l : List (Option Val)} (hd : h.dp.isSome = true)
    (hi : Inv (h.perr.toList ++ (h.dp.toList ++ (given ++ (lost ++ F)))) h.x none) (hm : lost.length ≤ mostAll asks)
    (he : ∀ p, y = .ok p → (∀ a ∈ asks, Answerable p a) → lost.length = mostAll asks) :
    AskLeft F asks y (.ok (h, given, lost, some l)) (.ok (some l))
  | failed {h : Han} (hf : Failed F h) : AskLeft F asks y (.ok (h, [], [], none)) (.ok none)
  | err : AskLeft F asks y .err .err
  | ub : AskLeft F asks y .ub .ub
  | abort : AskLeft F asks y .abort .abort

theorem askSession_ok {F : List Nat} {m : Mem} (abs zero : Bool) (files : List Bytes) (asks : List Ask) (hm : Heap m F [])
    (hb : ∀ f ∈ files, ∀ x ∈ f, x < 256) :
    AskLeft F asks (openPlot files) (askSessionM abs zero m files asks) (askSession files asks) := by
  unfold askSessionM askSession
  have ho := openPlotM_ok abs files hm
  generalize openPlotM abs m files = x at ho
  generalize hy : openPlot files = y at ho
  cases ho with
  | ub => exact .ub
  | abort => exact .abort
  | err hf => exact .failed hf
  | ok hr hp =>
    rename_i h v
    simp only [Res.bind_ok]
    have hl := askAll_ok zero asks hr (openPlot_counts hb hy)
    generalize askAllM zero asks (h.opened v) = x at hl
    generalize askAll asks (h.opened v).plot = y at hl
    cases hl with
    | ub => exact .ub
    | err => exact .err
    | abort => exact .abort
    | ok hl =>
      rename_i a t
      obtain ⟨p1, bs, ls, l⟩ := a
      obtain ⟨k1, ⟨k2, k3⟩, k4, k5⟩ := hl
      dsimp only at k1 k2 k3 k4 k5
      subst k1
      exact .ok k3 k2 k4 (fun p hp => by cases hp; exact k5)

theorem mostAll_zero : ∀ (asks : List Ask), (∀ a ∈ asks, a.most = 0) → mostAll asks = 0
  | [], _ => rfl
  | a :: asks, h => by
    have h1 := h a (by simp)
    have h2 := mostAll_zero asks (fun b hb => h b (by simp [hb]))
    simp only [mostAll, List.map_cons, List.sum_cons] at h2 ⊢
    omega

/-! ## C91 -/

/-- C91: a session with any calls returns the same with memory and without: no call uses or releases a block that has been released or does not
exist. -/
theorem c91_agrees (abs zero : Bool) (m : Mem) (files : List Bytes) (asks : List Ask) (hm : Valid m)
    (hb : ∀ f ∈ files, ∀ x ∈ f, x < 256) :
    Rel (fun r t => r.2.2.2 = t) (askSessionM abs zero m files asks) (askSession files asks) := by
  have h := askSession_ok abs zero files asks hm.heap hb
  generalize askSessionM abs zero m files asks = x at h
  generalize askSession files asks = y at h
  cases h with
  | ub => exact .ub
  | err => exact .err
  | abort => exact .abort
  | ok => exact .ok rfl
  | failed => exact .ok rfl

/-- C91: after any calls the memory consists of the blocks of the file, the blocks that the caller got, the lost blocks, and the blocks that
there were before; no handle of a file is in use. At most as many blocks are lost as there are, over all calls, kinds of elements of a part whose
connectivity the caller did not pass (and one for each call of the function of C++ for all ids). -/
theorem c91_memory (abs zero : Bool) (m : Mem) (files : List Bytes) (asks : List Ask) (hm : Valid m)
    (hb : ∀ f ∈ files, ∀ x ∈ f, x < 256) (h : Han) (given lost : List Nat) (l : List (Option Val))
    (hs : askSessionM abs zero m files asks = .ok (h, given, lost, some l)) :
    h.x.mem.live.Perm (h.own ++ (given ++ (lost ++ m.live))) ∧ (h.own ++ (given ++ (lost ++ m.live))).Nodup ∧ Idle h.x ∧
      lost.length ≤ mostAll asks := by
  have k := askSession_ok abs zero files asks hm.heap hb
  rw [hs] at k
  generalize askSession files asks = y at k
  cases k with
  | ok hd hi hmo he =>
    have hh := hi.heap.perm (L' := h.own ++ (given ++ (lost ++ m.live))) (by simp only [Han.own]; perms)
    exact ⟨hh.own, hh.nodup, hi.idle, hmo⟩

/-- C91 (the part that holds): if the caller passes the connectivity of all kinds of elements that the parts have, and does not use the function
of C++ for all ids, nothing is lost: after closing the file and releasing what the calls returned, the memory is the same as before.
Missing: the same without the first condition, which is false (`c91_lost_exactly`). -/
theorem c91_nothing_lost_partial (abs zero : Bool) (m : Mem) (files : List Bytes) (asks : List Ask) (hm : Valid m)
    (hb : ∀ f ∈ files, ∀ x ∈ f, x < 256) (hg : ∀ a ∈ asks, a.most = 0) (h : Han) (given lost : List Nat)
    (o : Option (List (Option Val))) (hs : askSessionM abs zero m files asks = .ok (h, given, lost, o)) :
    lost = [] ∧ ∃ h', closePlotM h = .ok h' ∧ h'.x.mem.live.Perm (given ++ m.live) ∧
      ∃ m2, h'.x.mem.freeAll given = .ok m2 ∧ m2.live.Perm m.live := by
  have k := askSession_ok abs zero files asks hm.heap hb
  rw [hs] at k
  generalize askSession files asks = y at k
  cases k with
  | ok hd hi hmo he =>
    have h0 : mostAll asks = 0 := mostAll_zero asks hg
    have hl : lost = [] := List.length_eq_zero_iff.1 (by omega)
    subst hl
    obtain ⟨h', e, hh, -⟩ := closePlotM_ok hi
    obtain ⟨m2, e2, h2⟩ := hh.freeAll
    exact ⟨rfl, h', e, hh.own, m2, e2, h2.own⟩
  | failed hf =>
    obtain ⟨hp, p, hi⟩ := hf
    obtain ⟨h', e, hh, -⟩ := closePlotM_ok hi
    exact ⟨rfl, h', e, hh.own, _, rfl, hh.own⟩

/-- C91: for parts of a file whose tables can be read, each call loses exactly one block for each kind of elements of the part whose connectivity
is not passed. The blocks are still there after the file has been closed and everything that was returned has been released. -/
theorem c91_lost_exactly (abs zero : Bool) (m : Mem) (files : List Bytes) (asks : List Ask) (hm : Valid m)
    (hb : ∀ f ∈ files, ∀ x ∈ f, x < 256) (p : Plot) (hp : openPlot files = .ok p) (hA : ∀ a ∈ asks, Answerable p a) (h : Han)
    (given lost : List Nat) (l : List (Option Val)) (hs : askSessionM abs zero m files asks = .ok (h, given, lost, some l)) :
    lost.length = mostAll asks ∧ ∃ h', closePlotM h = .ok h' ∧ ∃ m2, h'.x.mem.freeAll given = .ok m2 ∧
      m2.live.Perm (lost ++ m.live) ∧ m2.live.length = m.live.length + mostAll asks := by
  have k := askSession_ok abs zero files asks hm.heap hb
  rw [hs] at k
  generalize askSession files asks = y at k
  cases k with
  | ok hd hi hmo he =>
    have e := he p hp hA
    obtain ⟨h', e1, hh, -⟩ := closePlotM_ok hi
    obtain ⟨m2, e2, h2⟩ := hh.freeAll
    refine ⟨e, h', e1, m2, e2, h2.own, ?_⟩
    rw [h2.own.length_eq, List.length_append, e]
    omega

/-- C91: `D3plot::read_all_element_ids` loses nothing unless it throws an exception. -/
theorem c91_cpp_all_ids {F : List Nat} {p : PlotM} (h : Ready F p) (hn : Counts p.cda) (p' : PlotM) (bs lost v : List Nat)
    (hr : cppReadAllElementIdsM p = .ok ((p', some (bs, v)), lost)) : lost = [] ∧ Ready (bs ++ F) p' := by
  have k := cppReadAllElementIdsM_ok h hn
  rw [hr] at k
  generalize cppReadAllElementIds p.plot = y at k
  cases k with
  | ok k =>
    rename_i t
    have hl := k.2 (by rw [← k.1.val]; rfl)
    dsimp only at hl
    subst hl
    exact ⟨rfl, k.1.ready⟩

/-! ## Cases -/

/-- The part with index 0 of the sample. Part of the specification. -/
def samplePart : Part := ⟨[(0, 201)], [], [], [(0, 401)]⟩

theorem sample_answerable : ∃ p, openPlot sampleFiles = .ok p ∧ Answerable p (.nodeIds none {} samplePart) ∧
    Ask.run p (.nodeIds none {} samplePart) = .ok (p, some (.words [101, 102])) := by
  obtain ⟨p, h1, h2⟩ := Res.is_iff (r := openPlot sampleFiles) (f := fun p =>
    decide (readNodeIds p = .ok (p, some [101, 102])) &&
    (decide (readSolidIds p = .ok (p, some [201])) &&
    (decide (readSolidElements p = .ok (p, some [⟨[0, 1, 0, 1, 0, 1, 0, 1], 0⟩])) &&
    (decide (readBeamIds p = .ok (p, some [301])) &&
    (decide (readBeamElements p = .ok (p, some [⟨[0, 1, 0], 2⟩])) &&
    (decide (readShellIds p = .ok (p, some [401])) &&
    (decide (readShellElements p = .ok (p, some [⟨[0, 1, 1, 0], 0⟩])) &&
    (decide (readThickIds p = .ok (p, some [501])) &&
    (decide (readThickElements p = .ok (p, some [⟨[1, 0, 1, 0, 1, 0, 1, 0], 1⟩])) &&
    (decide (readPart p 0 = .ok (p, some ⟨[(0, 201)], [], [], [(0, 401)]⟩)) &&
    decide (partNodeIds none {} p ⟨[(0, 201)], [], [], [(0, 401)]⟩ = .ok (p, some [101, 102]))))))))))))
    (by decide +kernel)
  simp only [Bool.and_eq_true, decide_eq_true_eq] at h2
  obtain ⟨a, b1, b2, b3, b4, b5, b6, b7, b8, c, d⟩ := h2
  refine ⟨p, h1, ⟨[101, 102], a, .inl rfl, [201], [301], [401], [501], [⟨[0, 1, 0, 1, 0, 1, 0, 1], 0⟩], [⟨[0, 1, 0], 2⟩],
    [⟨[0, 1, 1, 0], 0⟩], [⟨[1, 0, 1, 0, 1, 0, 1, 0], 1⟩], 0, p, ?_, c⟩, ?_⟩
  · refine { h8 := b1, h8' := b2, h2 := b3, h2' := b4, h4 := b5, h4' := b6, ht := b7, ht' := b8,
             s8 := by simp, s2 := by simp, s4 := by simp, st := by simp, l8 := rfl, l2 := rfl,
             l4 := rfl, lt := rfl, b8 := by decide, b2 := by decide, b4 := by decide, bt := by decide,
             nodes := ?_, beamNodes := ?_, g8 := by simp, g2 := by simp, g4 := by simp, gt := by simp,
             g8' := by simp, g2' := by simp, g4' := by simp, gt' := by simp }
    all_goals
      intro e he n hn l hl
      cases hl
      revert e n
      decide
  · unfold Ask.run samplePart
    dsimp only
    rw [d]
    rfl

/-- C91: asking `k` times for the node ids of a part of the sample, which has solids and shells, succeeds and loses `2 * k` blocks. -/
theorem c91_lost_each_call (k : Nat) (abs zero : Bool) (m : Mem) (hm : Valid m) :
    ∃ h given lost l, askSessionM abs zero m sampleFiles (List.replicate k (.nodeIds none {} samplePart)) =
      .ok (h, given, lost, some l) ∧ lost.length = 2 * k := by
  obtain ⟨p, hp, hA, hr⟩ := sample_answerable
  have hb : ∀ f ∈ sampleFiles, ∀ x ∈ f, x < 256 := by decide +kernel
  have hplain : ∀ k, askAll (List.replicate k (.nodeIds none {} samplePart)) p =
      .ok (List.replicate k (some (.words [101, 102]))) := by
    intro k
    induction k with
    | zero => rfl
    | succ k ih =>
      rw [List.replicate_succ, List.replicate_succ]
      unfold askAll
      rw [hr]
      simp only [Res.bind_ok]
      rw [ih]
      rfl
  have ha := askSession_ok abs zero sampleFiles (List.replicate k (.nodeIds none {} samplePart)) hm.heap hb
  have hs : askSession sampleFiles (List.replicate k (.nodeIds none {} samplePart)) =
      .ok (some (List.replicate k (some (.words [101, 102])))) := by
    unfold askSession
    rw [hp]
    dsimp only
    rw [hplain]
    rfl
  rw [hs] at ha
  generalize hx : askSessionM abs zero m sampleFiles (List.replicate k (.nodeIds none {} samplePart)) = x at ha
  cases ha with
  | ok hd hi hmo he =>
    refine ⟨_, _, _, _, rfl, ?_⟩
    rw [he p hp (fun a ha => by rw [List.eq_of_mem_replicate ha]; exact hA)]
    unfold mostAll
    rw [List.map_replicate, List.sum_replicate_nat]
    show k * 2 = 2 * k
    omega

/-- How many calls succeed, how many blocks the caller gets, how many blocks are lost. Part of the specification. -/
def askSummary (r : Res (Han × List Nat × List Nat × Option (List (Option Val)))) : Option (Nat × Nat × Nat) :=
  match r with
  | .ok (_, given, lost, some l) => some (l.countP (·.isSome), given.length, lost.length)
  | _ => none

/-- Connectivity that is passed. Part of the specification. -/
def sampleGiven : Given := { solids := some [⟨[0, 1, 0, 1, 0, 1, 0, 1], 0⟩], shells := some [⟨[0, 1, 1, 0], 0⟩] }

/-- Every kind of call occurs in a session with the sample. -/
theorem c91_sample : askSummary (askSessionM true false ⟨7, [3, 5]⟩ sampleFiles
    [.read (.part 0), .nodeIds none {} samplePart, .nodeIndices { shellIds := some [401] } samplePart, .numNodes {} samplePart, .allIds, .cppAllIds,
     .nodeIds (some [101, 102]) sampleGiven samplePart, .numNodes sampleGiven samplePart]) = some (8, 9, 6) := by decide +kernel

/-- A session in which nothing is lost (the condition of `c91_nothing_lost_partial` is met). -/
example : (∀ a ∈ [Ask.allIds, .nodeIds none sampleGiven samplePart, .read .title], a.most = 0) ∧
    askSummary (askSessionM true false ⟨7, [3, 5]⟩ sampleFiles [.allIds, .nodeIds none sampleGiven samplePart, .read .title])
      = some (3, 3, 0) := by
  refine ⟨?_, by decide +kernel⟩
  intro a ha
  simp only [List.mem_cons, List.not_mem_nil, or_false] at ha
  rcases ha with rfl | rfl | rfl <;> rfl

end Dyna.D3Mem
