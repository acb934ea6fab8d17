import Verif.Props.D3MemCalls
import Verif.Props.D3Plot
/-!
# C89: memory and file handles of a d3plot

A user opens a file, calls functions that read, and closes the file.
-/

namespace Dyna.D3Mem

open Dyna.KeyMem Dyna.BinoutMem Dyna.D3

/-! ## Specification: the calls of a user -/

/-- Specification: the values of the nodes. -/
inductive Field
  | coordinates
  | velocity
  | acceleration

/-- Specification: the calls that read. `f32` are the functions that end with `_32`. -/
inductive Op
  | time (state : Nat)
  | allTime
  | nodes (f : Field) (f32 : Bool) (state : Nat)
  | allNodes (f : Field) (f32 : Bool)
  | nodeIds
  | solidIds
  | beamIds
  | shellIds
  | thickIds
  | title
  | runTime
  | solids
  | thicks
  | beams
  | shells
  | partIds
  | partTitles
  | part (index : Nat)
  | partById (id : Nat)

/-- Specification: what a call returns. -/
inductive Val
  | words (l : List Nat)
  | elements (l : List Con)
  | titles (l : List Bytes)
  | part (p : Part)
deriving DecidableEq

/-- Specification: where the values are in a state. -/
def Field.ptr (d : Ptrs) : Field → Nat
  | .coordinates => d.stCoords
  | .velocity => d.stVel
  | .acceleration => d.stAcc

/-- Specification: the result of a call, without memory. -/
def mapVal {α : Type} (f : α → Val) (r : Res (Plot × Option α)) : Res (Plot × Option Val) :=
  r >>= fun x => .ok (x.1, x.2.map f)

/-- Specification: the result of a call that gives blocks to the caller. -/
def mapOut {α : Type} (f : α → Val) (r : Res (OutM α)) : Res (OutM Val) :=
  r >>= fun x => .ok (x.1, x.2.map fun y => (y.1, f y.2))

/-- Specification: the result of a call that only gives values to the caller. -/
def mapNo {α : Type} (f : α → Val) (r : Res (PlotM × Option α)) : Res (OutM Val) :=
  r >>= fun x => .ok (x.1, x.2.map fun y => ([], f y))

/-- Specification: the calls in `Verif.D3Read`, which does not know memory. -/
def Op.run (p : Plot) : Op → Res (Plot × Option Val)
  | .time s => mapVal .words (readTime p s)
  | .allTime => mapVal .words (readAllTime p)
  | .nodes f _ s => mapVal .words (readNodeData p (f.ptr p.ptrs) s)
  | .allNodes f _ => mapVal .words (readAllNodeData p (f.ptr p.ptrs))
  | .nodeIds => mapVal .words (readNodeIds p)
  | .solidIds => mapVal .words (readSolidIds p)
  | .beamIds => mapVal .words (readBeamIds p)
  | .shellIds => mapVal .words (readShellIds p)
  | .thickIds => mapVal .words (readThickIds p)
  | .title => mapVal .words (readTitle p)
  | .runTime => mapVal .words (readRunTime p)
  | .solids => mapVal .elements (readSolidElements p)
  | .thicks => mapVal .elements (readThickElements p)
  | .beams => mapVal .elements (readBeamElements p)
  | .shells => mapVal .elements (readShellElements p)
  | .partIds => mapVal .words (readPartIds p)
  | .partTitles => mapVal .titles (readPartTitles p)
  | .part i => mapVal .part (readPart p i)
  | .partById id => mapVal .part (readPartById p id)

/-- Specification: the same calls with memory. -/
def Op.runM (p : PlotM) : Op → Res (OutM Val)
  | .time s => mapNo .words (readTimeM p s)
  | .allTime => mapOut .words (readAllTimeM p)
  | .nodes f f32 s => mapOut .words (readNodeDataM p (if f32 then p.h.x.ws == 4 else p.h.x.ws == 8) (f.ptr p.ptrs) s)
  | .allNodes f f32 => mapOut .words (readAllNodeDataM p (if f32 then p.h.x.ws == 4 else p.h.x.ws == 8) (f.ptr p.ptrs))
  | .nodeIds => mapOut .words (readIdsM p p.ptrs.nodeIds p.cda.raw.numnp)
  | .solidIds => mapOut .words (readIdsM p p.ptrs.el8Ids (toU64 p.cda.raw.nel8))
  | .beamIds => mapOut .words (readIdsM p p.ptrs.el2Ids p.cda.raw.nel2)
  | .shellIds => mapOut .words (readIdsM p p.ptrs.el4Ids p.cda.raw.nel4)
  | .thickIds => mapOut .words (readIdsM p p.ptrs.eltIds p.cda.raw.nelt)
  | .title => mapOut .words (readTitleM p)
  | .runTime => mapNo .words (readRunTimeM p)
  | .solids => mapOut .elements (readSolidElementsM p)
  | .thicks => mapOut .elements (readThickElementsM p)
  | .beams => mapOut .elements (readBeamElementsM p)
  | .shells => mapOut .elements (readShellElementsM p)
  | .partIds => mapOut .words (readPartIdsM p)
  | .partTitles => mapOut .titles (readPartTitlesM p)
  | .part i => mapOut (fun p => .part p.part) (readPartM p i)
  | .partById id => mapOut (fun p => .part p.part) (readPartByIdM p id)

/-- Specification: some calls without memory; the results are in the order of the calls. -/
def run : List Op → Plot → Res (List (Option Val))
  | [], _ => .ok []
  | o :: ops, p => do
    let r ← o.run p
    let l ← run ops r.1
    .ok (r.2 :: l)

/-- Specification: some calls; also the blocks that the caller got, none of which is released by the caller. -/
def runM : List Op → PlotM → Res (PlotM × List Nat × List (Option Val))
  | [], p => .ok (p, [], [])
  | o :: ops, p => do
    let r ← o.runM p
    let l ← runM ops r.1
    .ok (l.1, blocks (·.1) r.2 ++ l.2.1, r.2.map (·.2) :: l.2.2)

/-- Specification: open a file, and if that succeeds call functions. `none`: opening failed. -/
def session (files : List Bytes) (ops : List Op) : Res (Option (List (Option Val))) :=
  match openPlot files with
  | .ok p => run ops p >>= fun l => .ok (some l)
  | .err => .ok none
  | .ub => .ub
  | .abort => .abort

/-- Specification: the same with memory: the file, the blocks that the caller got, and the results. -/
def sessionM (abs : Bool) (m : Mem) (files : List Bytes) (ops : List Op) :
    Res (Han × List Nat × Option (List (Option Val))) := do
  let r ← openPlotM abs m files
  match r.2 with
  | none => .ok (r.1, [], none)
  | some v => do
    let t ← runM ops (r.1.opened v)
    .ok (t.1.h, t.2.1, some t.2.2)

/-! ## The numbers of elements are words -/

/-- The files consist of bytes. -/
def Nice (s : S) : Prop := s.b.ws ≤ 8 ∧ ∀ f ∈ s.b.files, ∀ x ∈ f, x < 256

/-- What a step returns. -/
def Post {α : Type} (P : α → Prop) (m : M α) : Prop := ∀ s a s', Nice s → m s = .ok (a, s') → P a

theorem Nice.same {s s' : S} (h : Nice s) (hs : Same s s') : Nice s' := by
  unfold Nice
  rw [hs.1, hs.2]
  exact h

theorem Post.bind {α β : Type} {P : α → Prop} {Q : β → Prop} {m : M α} {f : α → M β} (hF : Frame m) (hm : Post P m)
    (hf : ∀ a, P a → Post Q (f a)) : Post Q (m >>= f) := by
  intro s a s' hs e
  obtain ⟨x, s1, e1, e2⟩ := bind_inv e
  exact hf x (hm _ _ _ hs e1) _ _ _ (hs.same (hF _ _ _ e1)) e2

theorem Post.skipBind {α β : Type} {Q : β → Prop} {m : M α} {f : α → M β} (hF : Frame m) (hf : ∀ a, Post Q (f a)) :
    Post Q (m >>= f) := Post.bind (P := fun _ => True) hF (fun _ _ _ _ _ => trivial) (fun a _ => hf a)

theorem readLoop_bytes {ws : Nat} : ∀ (rest : List Bytes) (cur : Bytes) (q : Pos) (need : Nat) (acc : Bytes),
    (∀ f ∈ cur :: rest, ∀ x ∈ f, x < 256) → (∀ x ∈ acc, x < 256) →
    (readLoop ws rest cur q need acc).2.length ≤ acc.length + need ∧ ∀ x ∈ (readLoop ws rest cur q need acc).2, x < 256 := by
  intro rest
  induction rest with
  | nil =>
    intro cur q need acc h1 h2
    unfold readLoop
    have hd : ∀ x ∈ cur.drop q.pos, x < 256 := fun x hx => h1 cur (by simp) x (List.mem_of_mem_drop hx)
    split
    · refine ⟨by simp only [List.length_append, List.length_take, List.length_drop]; omega, ?_⟩
      intro x hx
      rcases List.mem_append.1 hx with hx | hx
      · exact h2 x hx
      · exact hd x (List.mem_of_mem_take hx)
    · refine ⟨by simp only [List.length_append, List.length_drop]; omega, ?_⟩
      intro x hx
      rcases List.mem_append.1 hx with hx | hx
      · exact h2 x hx
      · exact hd x hx
  | cons f rest ih =>
    intro cur q need acc h1 h2
    unfold readLoop
    have hd : ∀ x ∈ cur.drop q.pos, x < 256 := fun x hx => h1 cur (by simp) x (List.mem_of_mem_drop hx)
    split
    · refine ⟨by simp only [List.length_append, List.length_take, List.length_drop]; omega, ?_⟩
      intro x hx
      rcases List.mem_append.1 hx with hx | hx
      · exact h2 x hx
      · exact hd x (List.mem_of_mem_take hx)
    · have := ih f ⟨q.file + 1, 0, q.word + (cur.length - q.pos) / ws⟩ (need - (cur.length - q.pos)) (acc ++ cur.drop q.pos)
        (fun g hg => h1 g (List.mem_cons_of_mem _ hg)) (fun x hx => by
          rcases List.mem_append.1 hx with hx | hx
          · exact h2 x hx
          · exact hd x hx)
      refine ⟨?_, this.2⟩
      dsimp only
      have h3 := this.1
      simp only [List.length_append, List.length_drop] at h3
      omega

theorem Post.rd : Post (· < u64) D3.rd := by
  intro s a s' hs e
  unfold D3.rd at e
  obtain ⟨bytes, s1, e1, e2⟩ := bind_inv e
  cases e2
  have hb : bytes.length ≤ 8 ∧ ∀ x ∈ bytes, x < 256 := by
    unfold rdBytes readWords at e1
    cases hp : s.p with
    | none => rw [hp] at e1; cases e1
    | some q =>
      obtain ⟨hw, hf⟩ := hs
      have hm : 1 * s.b.ws % u64 = s.b.ws := by unfold u64; omega
      rw [hp, hm, Nat.one_mul] at e1
      dsimp only at e1
      cases hc : s.b.files[q.file]? with
      | none => rw [hc] at e1; cases e1
      | some cur =>
        rw [hc] at e1
        dsimp only at e1
        have hcur : ∀ x ∈ cur, x < 256 := hf cur (List.mem_of_getElem? hc)
        by_cases hl : s.b.ws ≤ cur.length - q.pos
        · rw [if_pos hl, if_pos hl] at e1
          cases e1
          exact ⟨by simp only [List.length_take]; omega, fun x hx =>
            hcur x (List.mem_of_mem_drop (List.mem_of_mem_take hx))⟩
        · rw [if_neg hl] at e1
          have hr := readLoop_bytes (ws := s.b.ws) (s.b.files.drop (q.file + 1)) cur q s.b.ws [] (by
            intro f hf'
            rcases List.mem_cons.1 hf' with rfl | hf'
            · exact hcur
            · exact hf f (List.mem_of_mem_drop hf')) (by simp)
          generalize readLoop s.b.ws (s.b.files.drop (q.file + 1)) cur q s.b.ws [] = r at e1 hr
          obtain ⟨q', bs⟩ := r
          simp only [List.length_nil] at hr
          cases q' with
          | none => cases e1; exact ⟨by omega, hr.2⟩
          | some q' => cases e1; exact ⟨by omega, hr.2⟩
  have h1 := D3.leNat_lt bytes hb.2
  have h2 : 256 ^ bytes.length ≤ 256 ^ 8 := Nat.pow_le_pow_right (by omega) hb.1
  have h3 : (256 : Nat) ^ 8 = u64 := by decide
  omega

theorem signed_lt {ws w : Nat} (h : w < u64) : signed ws w < u64 := by
  unfold signed
  have : (0 : Int) ≤ 256 ^ ws := Int.pow_nonneg (by decide)
  split <;> omega

theorem Post.rdSigned : Post (· < (u64 : Int)) D3.rdSigned := by
  intro s a s' hs e
  unfold D3.rdSigned at e
  cases h : D3.rd s with
  | ub => rw [h] at e; cases e
  | err => rw [h] at e; cases e
  | abort => rw [h] at e; cases e
  | ok r =>
    rw [h] at e
    cases e
    exact signed_lt (Post.rd _ _ _ hs h)

theorem Post.readRaw : Post (fun r : Raw => r.nel2 < u64 ∧ r.nel4 < u64 ∧ r.nelt < u64 ∧ r.nmmat < u64 ∧ r.nel8 < u64) readRaw := by
  unfold D3.readRaw
  repeat with_reducible first
    | refine Post.bind (P := (· < u64)) frame_rd Post.rd (fun _ _ => ?_)
    | refine Post.bind (P := (· < (u64 : Int))) frame_rdSigned Post.rdSigned (fun _ _ => ?_)
    | refine Post.skipBind (frame_skip _) (fun _ => ?_)
  intro s a s' _ e
  cases e
  exact ⟨by assumption, by assumption, by assumption, by assumption, by assumption⟩

theorem openHead_counts {fuel : Nat} {s s' : S} {a : Cda × Nat × Ptrs × List Nat} (hs : Nice s)
    (e : openHead fuel s = .ok (a, s')) : Counts a.1 := by
  unfold openHead readPlot at e
  obtain ⟨_, t1, e1, e⟩ := bind_inv e
  replace hs := hs.same (frame_skip _ _ _ _ e1)
  obtain ⟨_, t2, e2, e⟩ := bind_inv e
  replace hs := hs.same (frame_skip _ _ _ _ e2)
  obtain ⟨ft, t3, e3, e⟩ := bind_inv e
  replace hs := hs.same (frame_rd _ _ _ e3)
  dsimp only at e
  replace e := (ite_failClose_inv e).2
  obtain ⟨_, t4, e4, e⟩ := bind_inv e
  replace hs := hs.same (frame_skip _ _ _ _ e4)
  obtain ⟨_, t5, e5, e⟩ := bind_inv e
  replace hs := hs.same (frame_skip _ _ _ _ e5)
  obtain ⟨_, t6, e6, e⟩ := bind_inv e
  replace hs := hs.same (frame_skip _ _ _ _ e6)
  obtain ⟨raw, t7, e7, e⟩ := bind_inv e
  have hraw := Post.readRaw _ _ _ hs e7
  obtain ⟨ext, t8, e8, e⟩ := bind_inv e
  obtain ⟨err, t9, e9, e⟩ := bind_inv e
  replace e := (ite_failClose_inv e).2
  cases hder : derive raw ext with
  | ub => rw [hder] at e; cases e
  | abort => rw [hder] at e; cases e
  | err =>
    rw [hder] at e
    exact absurd e (by intro h; change D3.failClose _ = _ at h; unfold D3.failClose at h; split at h <;> cases h)
  | ok c' =>
    rw [hder] at e
    simp only at e
    replace e := (ite_failClose_inv e).2
    obtain ⟨⟨n', d', l'⟩, t10, e10, e⟩ := bind_inv e
    cases e
    have hcr : c'.raw = raw := by
      unfold derive at hder
      repeat' split at hder
      all_goals (try (cases hder; done))
      all_goals (cases hder; rfl)
    unfold Counts
    dsimp only
    rw [hcr]
    exact hraw

theorem openPlot_counts {files : List Bytes} {p : Plot} (hb : ∀ f ∈ files, ∀ x ∈ f, x < 256)
    (h : openPlot files = .ok p) : Counts p.cda := by
  cases ho : openBuf files with
  | ub => unfold openPlot at h; rw [ho] at h; cases h
  | err => unfold openPlot at h; rw [ho] at h; cases h
  | abort => unfold openPlot at h; rw [ho] at h; cases h
  | ok b =>
    obtain ⟨h1, h2, h3, h4⟩ := openBuf_inv ho
    rw [openPlot_eq files ho] at h
    have hn : Nice ⟨b, (seek b 0).2⟩ := ⟨by rcases h3 with h | h <;> (show b.ws ≤ 8; omega), by
      show ∀ f ∈ b.files, _
      rw [h1]; exact hb⟩
    generalize e : openHead (files.flatten.length + files.length + 1) ⟨b, (seek b 0).2⟩ = r at h
    cases r with
    | ub => cases h
    | err => cases h
    | abort => cases h
    | ok r =>
      obtain ⟨⟨c, n, d, l⟩, s⟩ := r
      cases h
      exact openHead_counts hn e

/-! ## Calls keep the control words -/

/-- The call keeps the control words. -/
def Kp {α : Type} (p : Plot) (c : Call α) : Prop := ∀ q o, c = .ok (q, o) → q.cda = p.cda

theorem same_cda {p q : Plot} (h : q = { p with buf := q.buf }) : q.cda = p.cda := by
  have := congrArg Plot.cda h
  dsimp only at this
  exact this

theorem Kp.readAt (p : Plot) (n w : Nat) : Kp p (readAt p n w) := fun _ _ h => same_cda (readAt_same h).1

theorem Kp.now {α : Type} (p : Plot) (o : Option α) : Kp p (.ok (p, o)) := by
  intro q o h
  cases h
  rfl

theorem Kp.readTime (p : Plot) (s : Nat) : Kp p (readTime p s) := by
  unfold D3.readTime
  split
  · exact .now _ _
  · exact .readAt _ _ _

theorem Kp.readNodeData (p : Plot) (ptr s : Nat) : Kp p (readNodeData p ptr s) := by
  unfold D3.readNodeData
  split
  · exact .now _ _
  · split
    · exact .now _ _
    · exact .readAt _ _ _

theorem Kp.readEach (n ptr : Nat) : ∀ (l : List Nat) (p : Plot), Kp p (readEach n ptr l p) := by
  intro l
  induction l with
  | nil => exact fun p => .now _ _
  | cons s rest ih =>
    intro p q o h
    unfold D3.readEach at h
    cases h1 : D3.readAt p n (s + ptr) with
    | ub => rw [h1] at h; cases h
    | err => rw [h1] at h; cases h
    | abort => rw [h1] at h; cases h
    | ok r =>
      obtain ⟨p1, o1⟩ := r
      rw [h1] at h
      have e1 := Kp.readAt _ _ _ _ _ h1
      cases o1 with
      | none => cases h; exact e1
      | some d =>
        dsimp only at h
        cases h2 : D3.readEach n ptr rest p1 with
        | ub => rw [h2] at h; cases h
        | err => rw [h2] at h; cases h
        | abort => rw [h2] at h; cases h
        | ok r =>
          obtain ⟨p2, o2⟩ := r
          rw [h2] at h
          have e2 := ih _ _ _ h2
          cases o2 <;> (cases h; rw [e2, e1])

theorem Kp.readIds (p : Plot) (ptr n : Nat) : Kp p (readIds p ptr n) := fun _ _ h => same_cda (readIds_same h)

theorem elements_same {p q : Plot} {c : Prop} [Decidable c] {n w : Nat} {f : List Nat → List Con} {o : Option (List Con)}
    (h : (if c then .ok (p, some []) else (readAt p n w).map f) = .ok (q, o)) : q = { p with buf := q.buf } := by
  split at h
  · cases h; rfl
  · exact map_same h

theorem Kp.readPartTitles (p : Plot) : Kp p (readPartTitles p) := by
  intro q o h
  unfold D3.readPartTitles at h
  cases hn : p.cda.raw.nmmat with
  | zero => rw [hn] at h; cases h
  | succ n =>
    rw [hn] at h
    dsimp only at h
    repeat' split at h
    all_goals first | cases h; done | (cases h; rfl)

theorem Kp.addElements {part : Nat} {rI : Plot → Call (List Nat)} {rE : Plot → Call (List Con)} {p q : Plot}
    {l : List (Nat × Nat)} (hI : ∀ p q o, rI p = .ok (q, o) → q = { p with buf := q.buf })
    (hE : ∀ p q o, rE p = .ok (q, o) → q = { p with buf := q.buf })
    (h : addElements part rI rE p = .ok (q, l)) : q.cda = p.cda := same_cda (addElements_same hI hE h)

theorem res_bind_inv {α β : Type} {x : Res α} {f : α → Res β} {b : β} (h : x.bind f = .ok b) : ∃ a, x = .ok a ∧ f a = .ok b := by
  cases x with
  | ok a => exact ⟨a, rfl, h⟩
  | ub => cases h
  | err => cases h
  | abort => cases h

theorem Kp.readPart (p : Plot) (i : Nat) : Kp p (readPart p i) := by
  intro q o h
  unfold D3.readPart at h
  obtain ⟨⟨p1, l1⟩, e1, h⟩ := res_bind_inv h
  obtain ⟨⟨p2, l2⟩, e2, h⟩ := res_bind_inv h
  obtain ⟨⟨p3, l3⟩, e3, h⟩ := res_bind_inv h
  obtain ⟨⟨p4, l4⟩, e4, h⟩ := res_bind_inv h
  have k1 := Kp.addElements (fun _ _ _ h => readIds_same h) (fun _ _ _ h => elements_same h) e1
  have k2 := Kp.addElements (fun _ _ _ h => readIds_same h) (fun _ _ _ h => elements_same h) e2
  have k3 := Kp.addElements (fun _ _ _ h => readIds_same h) (fun _ _ _ h => elements_same h) e3
  have k4 := Kp.addElements (fun _ _ _ h => readIds_same h) (fun _ _ _ h => elements_same h) e4
  have k : p4.cda = p.cda := by rw [k4, k3, k2, k1]
  dsimp only at h
  split at h <;> (cases h; exact k)

theorem Kp.readPartById (p : Plot) (id : Nat) : Kp p (readPartById p id) := by
  intro q o h
  cases h1 : readPartIds p with
  | ub => rw [(readPartById_bad id).1 h1] at h; cases h
  | err => rw [(readPartById_bad id).2.1 h1] at h; cases h
  | abort => rw [(readPartById_bad id).2.2 h1] at h; cases h
  | ok r =>
    obtain ⟨p1, o1⟩ := r
    have e1 := same_cda (readPartIds_same h1)
    cases o1 with
    | none => rw [readPartById_none h1] at h; cases h; exact e1
    | some ids =>
      rw [readPartById_some h1] at h
      unfold byIdDone at h
      split at h
      · cases h; exact e1
      · split at h
        · cases h; exact e1
        · rw [Kp.readPart _ _ _ _ h, e1]
        · cases h
        · cases h
        · cases h

theorem Kp.mapVal {α : Type} {p : Plot} {c : Call α} {f : α → Val} (h : Kp p c) : Kp p (mapVal f c) := by
  intro q o e
  unfold D3Mem.mapVal at e
  obtain ⟨⟨p1, o1⟩, e1, e⟩ := res_bind_inv e
  cases e
  exact h _ _ e1

theorem Kp.run (p : Plot) (o : Op) : Kp p (o.run p) := by
  cases o <;> refine Kp.mapVal ?_
  · exact .readTime _ _
  · exact .readEach _ _ _ _
  · exact .readNodeData _ _ _
  · exact .readEach _ _ _ _
  · exact .readIds _ _ _
  · exact .readIds _ _ _
  · exact .readIds _ _ _
  · exact .readIds _ _ _
  · exact .readIds _ _ _
  · exact .readAt _ _ _
  · exact .readAt _ _ _
  · exact fun _ _ h => same_cda (elements_same h)
  · exact fun _ _ h => same_cda (elements_same h)
  · exact fun _ _ h => same_cda (elements_same h)
  · exact fun _ _ h => same_cda (elements_same h)
  · exact fun _ _ h => same_cda (readPartIds_same h)
  · exact .readPartTitles _
  · exact .readPart _ _
  · exact .readPartById _ _

/-! ## Sessions -/

theorem mapOut_ok {α β : Type} {F : List Nat} {x : Res (OutM β)} {y : Call α} {f : β → Val} {g : α → Val} {val : β → α}
    (h : Rel (CR F (fun r : List Nat × β => r.1) (fun r => val r.2)) x y) (hf : ∀ b, f b = g (val b)) :
    Rel (CR F (fun r : List Nat × Val => r.1) (fun r => r.2)) (mapOut f x) (mapVal g y) := by
  unfold mapOut mapVal
  cases h with
  | ub => exact .ub
  | err => exact .err
  | abort => exact .abort
  | ok h =>
    rename_i r t
    obtain ⟨p1, o⟩ := r
    obtain ⟨t1, o'⟩ := t
    obtain ⟨h1, h2, h3, h4⟩ := h
    dsimp only at h1 h2 h3 h4
    subst h1 h3
    refine .ok ⟨rfl, ?_, ?_, ?_⟩
    · cases o <;> exact h2
    · cases o with
      | none => rfl
      | some b => exact congrArg some (hf b.2)
    · cases o <;> exact h4

theorem mapNo_ok {α : Type} {F : List Nat} {x : Res (PlotM × Option α)} {y : Call α} {f : α → Val}
    (h : Rel (CR F noBlk id) x y) :
    Rel (CR F (fun r : List Nat × Val => r.1) (fun r => r.2)) (mapNo f x) (mapVal f y) := by
  unfold mapNo mapVal
  cases h with
  | ub => exact .ub
  | err => exact .err
  | abort => exact .abort
  | ok h =>
    rename_i r t
    obtain ⟨p1, o⟩ := r
    obtain ⟨t1, o'⟩ := t
    obtain ⟨h1, h2, h3, h4⟩ := h
    dsimp only at h1 h2 h3 h4
    subst h1 h3
    refine .ok ⟨rfl, ?_, ?_, ?_⟩
    · cases o <;> exact h2
    · cases o <;> rfl
    · cases o <;> exact h4

theorem op_ok {F : List Nat} {p : PlotM} (h : Ready F p) (hn : Counts p.cda) (o : Op) :
    Rel (CR F (fun r : List Nat × Val => r.1) (fun r => r.2)) (o.runM p) (o.run p.plot) := by
  cases o
  · exact mapNo_ok (readTimeM_ok h _)
  · exact mapOut_ok (val := id) (readAllTimeM_ok h) (fun _ => rfl)
  · exact mapOut_ok (val := id) (readNodeDataM_ok h _ _ _) (fun _ => rfl)
  · exact mapOut_ok (val := id) (readAllNodeDataM_ok h _ _) (fun _ => rfl)
  · exact mapOut_ok (val := id) (readIdsM_ok h _ _) (fun _ => rfl)
  · exact mapOut_ok (val := id) (readIdsM_ok h _ _) (fun _ => rfl)
  · exact mapOut_ok (val := id) (readIdsM_ok h _ _) (fun _ => rfl)
  · exact mapOut_ok (val := id) (readIdsM_ok h _ _) (fun _ => rfl)
  · exact mapOut_ok (val := id) (readIdsM_ok h _ _) (fun _ => rfl)
  · exact mapOut_ok (val := id) (readTitleM_ok h) (fun _ => rfl)
  · exact mapNo_ok (readRunTimeM_ok h)
  · exact mapOut_ok (val := id) (readSolidElementsM_ok h) (fun _ => rfl)
  · exact mapOut_ok (val := id) (readThickElementsM_ok h) (fun _ => rfl)
  · exact mapOut_ok (val := id) (readBeamElementsM_ok h) (fun _ => rfl)
  · exact mapOut_ok (val := id) (readShellElementsM_ok h) (fun _ => rfl)
  · exact mapOut_ok (val := id) (readPartIdsM_ok h) (fun _ => rfl)
  · exact mapOut_ok (val := id) (readPartTitlesM_ok h) (fun _ => rfl)
  · exact mapOut_ok (val := PartM.part) (readPartM_ok h hn _) (fun _ => rfl)
  · exact mapOut_ok (val := PartM.part) (readPartByIdM_ok h hn _) (fun _ => rfl)

theorem run_ok : ∀ (ops : List Op) {F : List Nat} {p : PlotM}, Ready F p → Counts p.cda →
    Rel (fun r t => r.2.2 = t ∧ Ready (r.2.1 ++ F) r.1) (runM ops p) (run ops p.plot) := by
  intro ops
  induction ops with
  | nil => intro F p h _; exact .ok ⟨rfl, h⟩
  | cons o ops ih =>
    intro F p h hn
    unfold runM run
    have hr := op_ok h hn o
    have hk := Kp.run p.plot o
    generalize o.runM p = x at hr
    generalize o.run p.plot = y at hr hk
    cases hr with
    | ub => exact .ub
    | err => exact .err
    | abort => exact .abort
    | ok hr =>
      rename_i a t
      obtain ⟨p1, v⟩ := a
      obtain ⟨t1, v'⟩ := t
      obtain ⟨h1, h2, h3, h4⟩ := hr
      dsimp only at h1 h2 h3 h4
      subst h1 h3
      simp only [Res.bind_ok]
      have hc : Counts p1.cda := by
        have := hk _ _ rfl
        rw [show p1.cda = p1.plot.cda from rfl, this]
        exact hn
      have hl := ih h2 hc
      generalize runM ops p1 = x at hl
      generalize run ops p1.plot = y at hl
      cases hl with
      | ub => exact .ub
      | err => exact .err
      | abort => exact .abort
      | ok hl =>
        rename_i a t
        obtain ⟨p2, bs, l⟩ := a
        obtain ⟨k1, k2⟩ := hl
        dsimp only at k1 k2
        subst k1
        exact .ok ⟨rfl, k2.perm (by dsimp only; perms)⟩

/-- What is known after a session. -/
inductive Left (F : List Nat) : Res (Han × List Nat × Option (List (Option Val))) →
    Res (Option (List (Option Val))) → Prop
  | ok {h : Han} {given : List Nat} {l : List (Option Val)} (hd : h.dp.isSome = true)
    (hi : Inv (h.perr.toList ++ (h.dp.toList ++ (given ++ F))) h.x none) : Left F (.ok (h, given, some l)) (.ok (some l))
  | failed {h : Han} (hf : Failed F h) : Left F (.ok (h, [], none)) (.ok none)
  | err : Left F .err .err
  | ub : Left F .ub .ub
  | abort : Left F .abort .abort

theorem session_ok {F : List Nat} {m : Mem} (abs : Bool) (files : List Bytes) (ops : List Op) (hm : Heap m F [])
    (hb : ∀ f ∈ files, ∀ x ∈ f, x < 256) : Left F (sessionM abs m files ops) (session files ops) := by
  unfold sessionM session
  have ho := openPlotM_ok abs files hm
  generalize openPlotM abs m files = x at ho
  generalize hy : openPlot files = y at ho
  cases ho with
  | ub => exact .ub
  | abort => exact .abort
  | err hf => exact .failed hf
  | ok hr hp =>
    rename_i h v
    simp only [Res.bind_ok]
    have hl := run_ok ops hr (openPlot_counts hb hy)
    generalize runM ops (h.opened v) = x at hl
    generalize run ops (h.opened v).plot = y at hl
    cases hl with
    | ub => exact .ub
    | err => exact .err
    | abort => exact .abort
    | ok hl =>
      rename_i a t
      obtain ⟨p1, bs, l⟩ := a
      obtain ⟨k1, k2, k3⟩ := hl
      dsimp only at k1 k2 k3
      subst k1
      exact .ok k3 k2

/-! ## Handles -/

theorem FileOk.short {f : FileD} {o : Option Nat} (h : FileOk f o) : f.hs.length ≤ 1 := by
  cases o with
  | none => rcases h with h | ⟨fp, h, _⟩ <;> simp [h]
  | some fp => simp [h.1]

theorem Inv.idle {F : List Nat} {x : BufM} (h : Inv F x none) : Idle x := by
  intro f hf
  obtain ⟨i, hi⟩ := List.getElem?_of_mem hf
  have hk := h.ok i f hi
  refine ⟨hk.short, fun g hg => ?_⟩
  rcases hk with hk | ⟨fp, hk, _⟩
  · rw [hk] at hg; cases hg
  · rw [hk] at hg
    simp only [List.mem_singleton] at hg
    rw [hg]

theorem Inv.short {F : List Nat} {x : BufM} {p : PtrM} (h : Inv F x p) : ∀ f ∈ x.fs, f.hs.length ≤ 1 := by
  intro f hf
  obtain ⟨i, hi⟩ := List.getElem?_of_mem hf
  exact (h.ok i f hi).short

theorem locked_le (p : PtrM) : ∀ (fs : List FileD) (k : Nat), (∀ i f, fs[i]? = some f → FileOk f (holder p (k + i))) →
    (fs.flatMap (·.hs)).countP (·.locked) ≤ if ∃ q, p = some q ∧ k ≤ q.pos.file then 1 else 0 := by
  intro fs
  induction fs with
  | nil => intro k _; simp
  | cons f fs ih =>
    intro k h
    have h0 := h 0 f rfl
    have hr := ih (k + 1) (fun i g hg => by
      have := h (i + 1) g (by simpa using hg)
      rw [show k + 1 + i = k + (i + 1) by omega]
      exact this)
    rw [List.flatMap_cons, List.countP_append]
    rw [Nat.add_zero] at h0
    cases p with
    | none =>
      have hf : f.hs.countP (·.locked) = 0 := by
        rcases h0 with h0 | ⟨fp, h0, _⟩ <;> simp [h0]
      rw [if_neg (by simp)] at hr
      omega
    | some q =>
      by_cases hk : q.pos.file = k
      · have h1 : holder (some q) k = some q.fp := if_pos hk
        rw [h1] at h0
        have hf : f.hs.countP (·.locked) = 1 := by simp [h0.1]
        rw [if_neg (by rintro ⟨q', e, hq⟩; cases e; omega)] at hr
        rw [if_pos ⟨q, rfl, by omega⟩]
        omega
      · have h1 : holder (some q) k = none := if_neg hk
        rw [h1] at h0
        have hf : f.hs.countP (·.locked) = 0 := by
          rcases h0 with h0 | ⟨fp, h0, _⟩ <;> simp [h0]
        by_cases hle : k ≤ q.pos.file
        · rw [if_pos ⟨q, rfl, hle⟩]
          rw [if_pos ⟨q, rfl, by omega⟩] at hr
          omega
        · rw [if_neg (by rintro ⟨q', e, hq⟩; cases e; omega)] at hr
          omega

theorem Inv.used {F : List Nat} {x : BufM} {p : PtrM} (h : Inv F x p) : inUse x ≤ 1 := by
  have := locked_le p x.fs 0 (fun i f hf => by rw [Nat.zero_add]; exact h.ok i f hf)
  unfold inUse
  refine Nat.le_trans this ?_
  split <;> omega

/-! ## C89 -/

/-- C89: memory has no influence on the results: with and without memory a session returns the same, and in particular no call of a session
uses or releases a block that has been released, or does not exist. -/
theorem c89_agrees (abs : Bool) (m : Mem) (files : List Bytes) (ops : List Op) (hm : Valid m)
    (hb : ∀ f ∈ files, ∀ x ∈ f, x < 256) :
    Rel (fun r t => r.2.2 = t) (sessionM abs m files ops) (session files ops) := by
  have h := session_ok abs files ops hm.heap hb
  generalize sessionM abs m files ops = x at h
  generalize session files ops = y at h
  cases h with
  | ub => exact .ub
  | err => exact .err
  | abort => exact .abort
  | ok => exact .ok rfl
  | failed => exact .ok rfl

/-- C89: after any calls that read, whether they succeed or not, the memory consists of the blocks of the file, the blocks that the caller got,
and the blocks that there were before. Each file of the family has been opened at most once, and no handle is in use. -/
theorem c89_memory (abs : Bool) (m : Mem) (files : List Bytes) (ops : List Op) (hm : Valid m)
    (hb : ∀ f ∈ files, ∀ x ∈ f, x < 256) (h : Han) (given : List Nat) (l : List (Option Val))
    (hs : sessionM abs m files ops = .ok (h, given, some l)) :
    h.x.mem.live.Perm (h.own ++ (given ++ m.live)) ∧ (h.own ++ (given ++ m.live)).Nodup ∧ Idle h.x := by
  have k := session_ok abs files ops hm.heap hb
  rw [hs] at k
  generalize session files ops = y at k
  cases k with
  | ok hd hi =>
    have hh := hi.heap.perm (L' := h.own ++ (given ++ m.live)) (by simp only [Han.own]; perms)
    exact ⟨hh.own, hh.nodup, hi.idle⟩

/-- C89: if opening fails, there is an error, and the memory consists of the blocks of the file and the blocks that there were before. Each file
of the family has been opened at most once, and at most one handle is in use. -/
theorem c89_failed_open (abs : Bool) (m : Mem) (files : List Bytes) (ops : List Op) (hm : Valid m)
    (hb : ∀ f ∈ files, ∀ x ∈ f, x < 256) (h : Han) (given : List Nat)
    (hs : sessionM abs m files ops = .ok (h, given, none)) :
    given = [] ∧ h.perr.isSome = true ∧ h.x.mem.live.Perm (h.own ++ m.live) ∧ (h.own ++ m.live).Nodup ∧
      inUse h.x ≤ 1 ∧ ∀ f ∈ h.x.fs, f.hs.length ≤ 1 := by
  have k := session_ok abs files ops hm.heap hb
  rw [hs] at k
  generalize session files ops = y at k
  cases k with
  | failed hf =>
    obtain ⟨hp, p, hi⟩ := hf
    have hh := hi.heap.perm (L' := h.own ++ m.live) (by simp only [Han.own]; perms)
    exact ⟨rfl, hp, hh.own, hh.nodup, hi.used, hi.short⟩

/-- C89: whether opening succeeded or not, and after any calls: `d3plot_close` releases every block of the file once, so that the memory
consists of the blocks that the caller got and the blocks that there were before; the caller can release what it got afterwards. -/
theorem c89_close (abs : Bool) (m : Mem) (files : List Bytes) (ops : List Op) (hm : Valid m)
    (hb : ∀ f ∈ files, ∀ x ∈ f, x < 256) (h : Han) (given : List Nat) (o : Option (List (Option Val)))
    (hs : sessionM abs m files ops = .ok (h, given, o)) :
    ∃ h', closePlotM h = .ok h' ∧ h'.x.mem.live.Perm (given ++ m.live) ∧ Valid h'.x.mem ∧
      ∃ m2, h'.x.mem.freeAll given = .ok m2 ∧ m2.live.Perm m.live := by
  have k := session_ok abs files ops hm.heap hb
  rw [hs] at k
  generalize session files ops = y at k
  cases k with
  | ok hd hi =>
    obtain ⟨h', e, hh, -⟩ := closePlotM_ok hi
    obtain ⟨m2, e2, h2⟩ := hh.freeAll
    exact ⟨h', e, hh.own, hh.valid, m2, e2, h2.own⟩
  | failed hf =>
    obtain ⟨hp, p, hi⟩ := hf
    obtain ⟨h', e, hh, -⟩ := closePlotM_ok hi
    exact ⟨h', e, hh.own, hh.valid, _, rfl, hh.own⟩

/-- A file must not be closed twice: a second `d3plot_close` releases one block again. -/
theorem c89_close_twice (abs : Bool) (m : Mem) (files : List Bytes) (ops : List Op) (hm : Valid m)
    (hb : ∀ f ∈ files, ∀ x ∈ f, x < 256) (h : Han) (given : List Nat) (l : List (Option Val))
    (hs : sessionM abs m files ops = .ok (h, given, some l)) :
    ∃ h', closePlotM h = .ok h' ∧ closePlotM h' = .ub := by
  have k := session_ok abs files ops hm.heap hb
  rw [hs] at k
  generalize session files ops = y at k
  cases k with
  | ok hd hi =>
    obtain ⟨h', e, hh, hdp, hpe, hown, hx⟩ := closePlotM_ok hi
    refine ⟨h', e, ?_⟩
    cases hb : h.dp with
    | none => rw [hb] at hd; cases hd
    | some b =>
      rw [hb] at hh hdp
      exact closePlotM_twice hdp hh hx

/-! ## Cases -/

/-- All calls, with arguments that exist and some that do not. Part of the specification. -/
def sampleOps : List Op :=
  [.time 1, .time 7, .allTime, .nodes .coordinates false 2, .nodes .velocity true 0, .allNodes .coordinates true, .nodeIds, .solidIds,
   .beamIds, .shellIds, .thickIds, .title, .runTime, .solids, .thicks, .beams, .shells, .partIds, .partTitles, .part 0, .part 5,
   .partById 7, .partById 8]

/-- How many calls succeed, how many blocks the caller gets, and how many blocks the file has. Part of the specification. -/
def summary (r : Res (Han × List Nat × Option (List (Option Val)))) : Option (Nat × Nat × Nat × Nat) :=
  match r with
  | .ok (h, given, some l) => some (l.countP (·.isSome), given.length, h.own.length, h.x.fs.length)
  | _ => none

/-- Every kind of call occurs in a session with the sample. -/
theorem c89_sample : summary (sessionM true ⟨7, [3, 5]⟩ sampleFiles sampleOps) = some (19, 24, 13, 3) := by decide +kernel

/-- The hypotheses of the theorems can be met. -/
example : ∃ h given l, Valid ⟨7, [3, 5]⟩ ∧ (∀ f ∈ sampleFiles, ∀ x ∈ f, x < 256) ∧
    sessionM true ⟨7, [3, 5]⟩ sampleFiles sampleOps = .ok (h, given, some l) := by
  have h := c89_sample
  generalize hs : sessionM true ⟨7, [3, 5]⟩ sampleFiles sampleOps = r at h
  unfold summary at h
  split at h
  · exact ⟨_, _, _, by unfold BinoutMem.Valid; decide, by decide +kernel, rfl⟩
  · cases h

/-- The sample with ids for three nodes, while there are two. Part of the specification. -/
def badFiles : List Bytes :=
  [pack (sampleControl sampleSet ++ sampleGeometry ++ sampleIds.set 5 3 ++ sampleHeaderBlocks),
   pack (sampleState 1000 ++ sampleState 2000 ++ [eof32]),
   pack (sampleState 3000 ++ [eof32, 0])]

/-- Opening fails; the number of handles that are in use. Part of the specification. -/
def stuck (r : Res (Han × List Nat × Option (List (Option Val)))) : Option Nat :=
  match r with
  | .ok (h, _, none) => some (inUse h.x)
  | _ => none

/-- A handle can be in use after opening failed: the checks of the numbers of ids return without giving it back. -/
theorem c89_handle_in_use : stuck (sessionM true ⟨7, [3, 5]⟩ badFiles []) = some 1 := by decide +kernel

end Dyna.D3Mem
