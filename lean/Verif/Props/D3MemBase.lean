import Verif.D3Mem
import Verif.Props.BinoutMem
/-!
# C89: memory and file handles of a d3plot
-/

namespace Dyna.D3Mem

open Dyna.KeyMem Dyna.BinoutMem Dyna.D3

/-! ## Specification -/

/-- Specification: the blocks of a file of the family: its path, the array of handles and the open `FILE`s. -/
def FileD.own (f : FileD) : List Nat := f.path :: (f.arr.toList ++ f.hs.map (·.fp))

/-- Specification: the blocks of a buffer. -/
def BufM.own (x : BufM) : List Nat := x.arr.toList ++ (x.root.toList ++ (x.err.toList ++ x.fs.flatMap FileD.own))

/-- Specification: the buffer without its blocks. -/
def BufM.data (x : BufM) : Buf := ⟨x.files, x.ws, x.err.isSome⟩

/-- Specification: the pointer without its handle. -/
def dataP (p : PtrM) : Ptr := p.map (·.pos)

/-- Specification: every file has been opened at most once, and no handle is in use. -/
def Idle (x : BufM) : Prop := ∀ f ∈ x.fs, f.hs.length ≤ 1 ∧ ∀ h ∈ f.hs, h.locked = false

/-- Specification: the number of handles that are in use. -/
def inUse (x : BufM) : Nat := (x.fs.flatMap (·.hs)).countP (·.locked)

/-! ## The invariant -/

/-- The `FILE` of the pointer, if the pointer is in this file. -/
def holder (p : PtrM) (i : Nat) : Option Nat :=
  match p with
  | none => none
  | some q => if q.pos.file = i then some q.fp else none

/-- A file with at most one handle, which is in use exactly if the pointer holds it. -/
def FileOk (f : FileD) : Option Nat → Prop
  | some fp => f.hs = [⟨fp, true⟩] ∧ f.arr.isSome = true
  | none => f.hs = [] ∨ ∃ fp, f.hs = [⟨fp, false⟩] ∧ f.arr.isSome = true

/-- The state of a buffer with one pointer `p`; `F` are the blocks of others. -/
structure Inv (F : List Nat) (x : BufM) (p : PtrM) : Prop where
  heap : Heap x.mem (x.own ++ F) []
  arr : x.arr.isSome = true
  len : x.fs.length = x.files.length
  ok : ∀ i f, x.fs[i]? = some f → FileOk f (holder p i)
  ptr : ∀ q, p = some q → q.pos.file < x.fs.length ∧ q.idx = 0

theorem useArr_ok {m : Mem} {L D : List Nat} {o : Option Nat} (h : Heap m L D) (ho : o.isSome = true)
    (hm : ∀ b ∈ o, b ∈ L) : useArr m o = .ok () := by
  cases o with
  | none => cases ho
  | some b => exact h.use (hm b rfl)

theorem Inv.useFiles {F : List Nat} {x : BufM} {p : PtrM} (h : Inv F x p) : useArr x.mem x.arr = .ok () :=
  useArr_ok h.heap h.arr (fun b hb => by
    simp only [Option.mem_def] at hb
    simp [BufM.own, hb])

theorem own_set {fs : List FileD} {i : Nat} {f : FileD} (h : fs[i]? = some f) :
    ∃ R, (fs.flatMap FileD.own).Perm (f.own ++ R) ∧
      ∀ f', ((fs.set i f').flatMap FileD.own).Perm (f'.own ++ R) := by
  induction fs generalizing i with
  | nil => cases h
  | cons g fs ih =>
    cases i with
    | zero =>
      cases h
      exact ⟨fs.flatMap FileD.own, by simp, fun f' => by simp⟩
    | succ i =>
      obtain ⟨R, h1, h2⟩ := ih (i := i) h
      refine ⟨g.own ++ R, ?_, fun f' => ?_⟩
      · simp only [List.flatMap_cons]
        have := List.perm_iff_count.1 h1
        refine List.perm_iff_count.2 (fun a => ?_)
        have := this a
        simp only [List.count_append] at *
        omega
      · simp only [List.set_cons_succ, List.flatMap_cons]
        have := List.perm_iff_count.1 (h2 f')
        refine List.perm_iff_count.2 (fun a => ?_)
        have := this a
        simp only [List.count_append] at *
        omega

theorem accessM_ok {m : Mem} {f : FileD} {R : List Nat} (hf : FileOk f none) (h : Heap m (f.own ++ R) []) :
    ∃ m' f' fp, accessM m f = .ok (m', f', 0, fp) ∧ FileOk f' (some fp) ∧ Heap m' (f'.own ++ R) [] := by
  rcases hf with hs | ⟨fp, hs, ha⟩
  · obtain ⟨path, arr, hs'⟩ := f
    cases hs
    unfold accessM newHandle
    have h0 : firstFree [] = none := rfl
    rw [h0]
    dsimp only
    obtain ⟨m1, b, e1, h1⟩ := Heap.realloc (m := m) (o := arr) (L := path :: R) (D := []) (h.perm (by
      simp only [FileD.own, List.map_nil]; perms))
    rw [e1]
    simp only [Res.bind_ok]
    rw [h1.use (by simp)]
    simp only [Res.bind_ok]
    refine ⟨_, _, _, rfl, ⟨rfl, rfl⟩, ?_⟩
    refine h1.alloc.perm ?_
    simp only [FileD.own, List.nil_append, List.map_cons, List.map_nil]
    perms
  · obtain ⟨path, arr, hs'⟩ := f
    cases hs
    unfold accessM
    have h0 : firstFree [⟨fp, false⟩] = some 0 := rfl
    rw [h0]
    dsimp only
    rw [useArr_ok h ha (fun b hb => by simp only [Option.mem_def] at hb; simp [FileD.own, hb])]
    simp only [Res.bind_ok]
    exact ⟨_, _, _, rfl, ⟨rfl, ha⟩, h⟩

theorem returnM_ok {m : Mem} {f : FileD} {R : List Nat} {fp : Nat} (hf : FileOk f (some fp)) (h : Heap m (f.own ++ R) []) :
    ∃ f', returnM m f 0 = .ok f' ∧ FileOk f' none ∧ f'.own = f.own := by
  obtain ⟨path, arr, hs'⟩ := f
  obtain ⟨hs, ha⟩ := hf
  cases hs
  unfold returnM
  rw [useArr_ok h ha (fun b hb => by simp only [Option.mem_def] at hb; simp [FileD.own, hb])]
  exact ⟨_, rfl, .inr ⟨fp, rfl, ha⟩, rfl⟩

/-- Replace the blocks of the files. -/
theorem heap_files {x : BufM} {m : Mem} {F R : List Nat} {f f' : FileD} {i : Nat}
    (h1 : (x.fs.flatMap FileD.own).Perm (f.own ++ R)) (h2 : ((x.fs.set i f').flatMap FileD.own).Perm (f'.own ++ R)) :
    (x.own ++ F).Perm (f.own ++ (R ++ (x.arr.toList ++ (x.root.toList ++ (x.err.toList ++ F))))) ∧
    (BufM.own { x with mem := m, fs := x.fs.set i f' } ++ F).Perm
      (f'.own ++ (R ++ (x.arr.toList ++ (x.root.toList ++ (x.err.toList ++ F))))) := by
  constructor
  · have := List.perm_iff_count.1 h1
    refine List.perm_iff_count.2 (fun a => ?_)
    have := this a
    simp only [BufM.own, List.count_append] at *
    omega
  · have := List.perm_iff_count.1 h2
    refine List.perm_iff_count.2 (fun a => ?_)
    have := this a
    simp only [BufM.own, List.count_append] at *
    omega

theorem access_ok {F : List Nat} {x : BufM} (h : Inv F x none) {i : Nat} (hi : i < x.fs.length) :
    ∃ y fp, x.access i = .ok (y, 0, fp) ∧ y.data = x.data ∧
      ∀ k w, Inv F y (some ⟨⟨i, k, w⟩, 0, fp⟩) := by
  obtain ⟨f, hf⟩ : ∃ f, x.fs[i]? = some f := ⟨_, List.getElem?_eq_getElem hi⟩
  obtain ⟨R, h1, h2⟩ := own_set hf
  have hfo : FileOk f none := h.ok i f hf
  obtain ⟨m', f', fp, e, hf', hh⟩ := accessM_ok hfo (h.heap.perm (heap_files (m := x.mem) (f' := f) h1 (h2 f)).1)
  unfold BufM.access
  rw [h.useFiles]
  simp only [Res.bind_ok]
  rw [hf]
  dsimp only
  rw [e]
  simp only [Res.bind_ok]
  refine ⟨_, _, rfl, rfl, fun k w => ⟨hh.perm (heap_files h1 (h2 f')).2.symm, h.arr, ?_, ?_, ?_⟩⟩
  · show (x.fs.set i f').length = _
    rw [List.length_set]; exact h.len
  · intro j g hg
    dsimp only at hg
    rw [List.getElem?_set] at hg
    by_cases hij : i = j
    · rw [if_pos hij, if_pos hi] at hg
      cases hg
      simp only [holder, if_pos hij]
      exact hf'
    · rw [if_neg hij] at hg
      simp only [holder, if_neg hij]
      exact h.ok j g hg
  · intro q hq
    cases hq
    exact ⟨by show i < (x.fs.set i f').length; rw [List.length_set]; exact hi, rfl⟩

theorem closeM_ok {F : List Nat} {x : BufM} {q : PosM} (h : Inv F x (some q)) :
    ∃ y, closeM x (some q) = .ok y ∧ y.data = x.data ∧ Inv F y none := by
  obtain ⟨hi, h0⟩ := h.ptr q rfl
  obtain ⟨f, hf⟩ : ∃ f, x.fs[q.pos.file]? = some f := ⟨_, List.getElem?_eq_getElem hi⟩
  obtain ⟨R, h1, h2⟩ := own_set hf
  have hfo : FileOk f (some q.fp) := by
    have := h.ok _ f hf
    simpa only [holder, if_true] using this
  have hp := (heap_files (m := x.mem) (f' := f) (F := F) h1 (h2 f)).1
  obtain ⟨f', e, hf', ho⟩ := returnM_ok hfo (h.heap.perm hp)
  unfold closeM BufM.giveBack
  dsimp only
  rw [h.useFiles]
  simp only [Res.bind_ok]
  rw [hf, h0]
  dsimp only
  rw [e]
  simp only [Res.bind_ok]
  refine ⟨_, rfl, rfl, ⟨?_, h.arr, ?_, ?_, ?_⟩⟩
  · have := h.heap.perm hp
    rw [← ho] at this
    exact this.perm (heap_files h1 (h2 f')).2.symm
  · show (x.fs.set _ f').length = _
    rw [List.length_set]; exact h.len
  · intro j g hg
    dsimp only at hg
    rw [List.getElem?_set] at hg
    by_cases hij : q.pos.file = j
    · rw [if_pos hij, if_pos hi] at hg
      cases hg
      exact hf'
    · rw [if_neg hij] at hg
      have := h.ok j g hg
      simpa only [holder, if_neg hij] using this
  · intro q' hq'
    cases hq'

theorem Inv.move {F : List Nat} {x : BufM} {q : PosM} (h : Inv F x (some q)) (k w : Nat) :
    Inv F x (some { q with pos := ⟨q.pos.file, k, w⟩ }) :=
  ⟨h.heap, h.arr, h.len, fun i f hf => h.ok i f hf, fun q' hq' => by cases hq'; exact h.ptr q rfl⟩

/-- Change the memory and the blocks of others. -/
theorem Inv.other {F F' : List Nat} {x : BufM} {p : PtrM} {m : Mem} (h : Inv F x p)
    (hm : Heap m (x.own ++ F') []) : Inv F' { x with mem := m } p :=
  ⟨hm, h.arr, h.len, h.ok, h.ptr⟩

theorem Inv.perm {F F' : List Nat} {x : BufM} {p : PtrM} (h : Inv F x p) (hp : F.Perm F') : Inv F' x p :=
  ⟨h.heap.perm (hp.append_left _), h.arr, h.len, h.ok, h.ptr⟩

theorem setErr_ok {F : List Nat} {x : BufM} {p : PtrM} (h : Inv F x p) :
    ∃ y, setErr x = .ok y ∧ y.data = { x.data with err := true } ∧ Inv F y p := by
  obtain ⟨m', e, hh⟩ := Heap.freeOpt (m := x.mem) (o := x.err)
    (L := x.arr.toList ++ (x.root.toList ++ (x.fs.flatMap FileD.own ++ F))) (D := []) (h.heap.perm (by
      simp only [BufM.own]; perms))
  unfold setErr
  rw [e]
  simp only [Res.bind_ok]
  refine ⟨_, rfl, rfl, ⟨?_, h.arr, h.len, h.ok, h.ptr⟩⟩
  refine hh.alloc.perm ?_
  simp only [BufM.own]
  perms

theorem freeErr_ok {F : List Nat} {x : BufM} {p : PtrM} (h : Inv F x p) :
    ∃ y, freeErr x = .ok y ∧ y.data = { x.data with err := false } ∧ Inv F y p := by
  obtain ⟨m', e, hh⟩ := Heap.freeOpt (m := x.mem) (o := x.err)
    (L := x.arr.toList ++ (x.root.toList ++ (x.fs.flatMap FileD.own ++ F))) (D := []) (h.heap.perm (by
      simp only [BufM.own]; perms))
  unfold freeErr
  rw [e]
  simp only [Res.bind_ok]
  refine ⟨_, rfl, rfl, ⟨?_, h.arr, h.len, h.ok, h.ptr⟩⟩
  refine hh.perm ?_
  simp only [BufM.own]
  perms

theorem locate_bound : ∀ (fs : List Bytes) (k p i r : Nat), locate fs k p = some (i, r) → i < k + fs.length := by
  intro fs
  induction fs with
  | nil => intro k p i r h; cases h
  | cons f fs ih =>
    intro k p i r h
    unfold locate at h
    split at h
    · cases h; simp only [List.length_cons]; omega
    · have := ih _ _ _ _ h
      simp only [List.length_cons]; omega

/-- Specification: the same values, and the invariant holds. -/
def BP (F : List Nat) (r : BufM × PtrM) (t : Buf × Ptr) : Prop := r.1.data = t.1 ∧ dataP r.2 = t.2 ∧ Inv F r.1 r.2

theorem seekM_ok {F : List Nat} {x : BufM} (h : Inv F x none) (word : Nat) :
    ∃ r, seekM x word = .ok r ∧ BP F r (seek x.data word) := by
  unfold seekM seek
  show ∃ r, _ ∧ BP F r (match locate x.files 0 (word * x.ws % u64) with
    | none => ({ x.data with err := true }, none)
    | some (i, p) => (x.data, some ⟨i, p, word⟩))
  cases hl : locate x.files 0 (word * x.ws % u64) with
  | none =>
    obtain ⟨y, e, hd, hy⟩ := setErr_ok h
    dsimp only
    rw [e]
    exact ⟨_, rfl, hd, rfl, hy⟩
  | some ip =>
    obtain ⟨i, p⟩ := ip
    have := locate_bound _ _ _ _ _ hl
    obtain ⟨y, fp, e, hd, hy⟩ := access_ok h (i := i) (by rw [h.len]; omega)
    dsimp only
    rw [e]
    exact ⟨_, rfl, hd, rfl, hy _ _⟩

theorem Inv.useFp {F : List Nat} {x : BufM} {q : PosM} (h : Inv F x (some q)) : x.mem.use q.fp = .ok () := by
  obtain ⟨hi, h0⟩ := h.ptr q rfl
  obtain ⟨f, hf⟩ : ∃ f, x.fs[q.pos.file]? = some f := ⟨_, List.getElem?_eq_getElem hi⟩
  have hfo := h.ok _ f hf
  simp only [holder, if_true] at hfo
  refine h.heap.use ?_
  have : q.fp ∈ f.own := by simp [FileD.own, hfo.1]
  have : q.fp ∈ x.fs.flatMap FileD.own := List.mem_flatMap.2 ⟨f, List.mem_of_getElem? hf, this⟩
  simp [BufM.own, this]

theorem nextFileM_ok {F : List Nat} {x : BufM} {q : PosM} (h : Inv F x (some q)) {cur : Bytes}
    (hc : x.files[q.pos.file]? = some cur) :
    ∃ r, nextFileM x (some q) = .ok r ∧ r.1.data = x.data ∧ Inv F r.1 r.2 ∧
      dataP r.2 = (if q.pos.file + 1 = x.files.length then none
        else some ⟨q.pos.file + 1, 0, q.pos.word + (cur.length - q.pos.pos) / x.ws⟩) := by
  unfold nextFileM
  dsimp only
  rw [h.useFiles]
  simp only [Res.bind_ok]
  rw [h.useFp]
  simp only [Res.bind_ok]
  rw [hc]
  dsimp only
  obtain ⟨y, e, hd, hy⟩ := closeM_ok h
  rw [e]
  simp only [Res.bind_ok]
  have hfl : y.files = x.files := congrArg Buf.files hd
  have hws : y.ws = x.ws := congrArg Buf.ws hd
  rw [hfl, hws]
  by_cases hl : q.pos.file + 1 = x.files.length
  · rw [if_pos hl, if_pos hl]
    exact ⟨_, rfl, hd, hy, rfl⟩
  · rw [if_neg hl, if_neg hl]
    have hlt := (List.getElem?_eq_some_iff.1 hc).1
    obtain ⟨z, fp, e, hd2, hz⟩ := access_ok hy (i := q.pos.file + 1) (by rw [hy.len, hfl]; omega)
    rw [e]
    exact ⟨_, rfl, hd2.trans hd, hz _ _, rfl⟩

theorem readLoopM_ok {F : List Nat} : ∀ (rest : List Bytes) (cur : Bytes) (x : BufM) (q : PosM) (need : Nat) (acc : Bytes),
    Inv F x (some q) → x.files[q.pos.file]? = some cur → rest = x.files.drop (q.pos.file + 1) →
    ∃ r, readLoopM rest cur x q need acc = .ok r ∧
      (dataP r.2.1, r.2.2) = readLoop x.ws rest cur q.pos need acc ∧ Inv F r.1 r.2.1 ∧
      r.1.data = (if (dataP r.2.1).isNone then { x.data with err := true } else x.data) := by
  intro rest
  induction rest with
  | nil =>
    intro cur x q need acc h hc hr
    unfold readLoopM readLoop
    by_cases hn : cur.length - q.pos.pos ≥ need
    · rw [if_pos hn, if_pos hn]
      unfold readHereM
      rw [h.useFp]
      exact ⟨_, rfl, rfl, h.move _ _, rfl⟩
    · rw [if_neg hn, if_neg hn]
      unfold advanceM
      rw [h.useFp]
      simp only [Res.bind_ok]
      obtain ⟨r, e, hd, hi, hp⟩ := nextFileM_ok (h.move (q.pos.pos + (cur.length - q.pos.pos))
        (q.pos.word + (cur.length - q.pos.pos) / x.ws)) hc
      rw [e]
      simp only [Res.bind_ok]
      have hlt := (List.getElem?_eq_some_iff.1 hc).1
      have hl : q.pos.file + 1 = x.files.length := by
        have := congrArg List.length hr
        rw [List.length_drop, List.length_nil] at this
        omega
      rw [if_pos hl] at hp
      obtain ⟨y, p⟩ := r
      cases p with
      | some _ => cases hp
      | none =>
        dsimp only at *
        obtain ⟨z, e, hd2, hz⟩ := setErr_ok hi
        unfold noMoreM
        rw [e]
        refine ⟨_, rfl, rfl, hz, ?_⟩
        show z.data = _
        rw [hd2, hd]; rfl
  | cons f rest ih =>
    intro cur x q need acc h hc hr
    unfold readLoopM readLoop
    by_cases hn : cur.length - q.pos.pos ≥ need
    · rw [if_pos hn, if_pos hn]
      unfold readHereM
      rw [h.useFp]
      exact ⟨_, rfl, rfl, h.move _ _, rfl⟩
    · rw [if_neg hn, if_neg hn]
      unfold advanceM
      rw [h.useFp]
      simp only [Res.bind_ok]
      obtain ⟨r, e, hd, hi, hp⟩ := nextFileM_ok (h.move (q.pos.pos + (cur.length - q.pos.pos))
        (q.pos.word + (cur.length - q.pos.pos) / x.ws)) hc
      rw [e]
      simp only [Res.bind_ok]
      have hl : q.pos.file + 1 ≠ x.files.length := by
        have := congrArg List.length hr
        rw [List.length_drop, List.length_cons] at this
        omega
      rw [if_neg hl] at hp
      obtain ⟨y, p⟩ := r
      cases p with
      | none => cases hp
      | some q' =>
        dsimp only at *
        simp only [dataP, Option.map_some, Option.some.injEq] at hp
        have hz : cur.length - (q.pos.pos + (cur.length - q.pos.pos)) = 0 := by omega
        rw [hz, Nat.zero_div, Nat.add_zero] at hp
        have hfl : y.files = x.files := congrArg Buf.files hd
        have hws : y.ws = x.ws := congrArg Buf.ws hd
        obtain ⟨g1, g2⟩ : x.files[q.pos.file + 1]? = some f ∧ rest = x.files.drop (q.pos.file + 1 + 1) := by
          constructor
          · have := congrArg (fun l => l[0]?) hr
            simp only [List.getElem?_cons_zero, List.getElem?_drop, Nat.add_zero] at this
            exact this.symm
          · have := congrArg List.tail hr
            simpa only [List.tail_cons, List.tail_drop] using this
        obtain ⟨r, e, hr2, hi2, hd2⟩ := ih f y q' (need - (cur.length - q.pos.pos)) (acc ++ cur.drop q.pos.pos) hi
          (by rw [hfl, hp]; exact g1) (by rw [hfl, hp]; exact g2)
        rw [e]
        rw [hws, hp] at hr2
        refine ⟨_, rfl, hr2, hi2, ?_⟩
        rw [hd2, hd]

/-- Specification: the same values, and the invariant holds. -/
def BPB (F : List Nat) (r : BufM × PtrM × Bytes) (t : Buf × Ptr × Bytes) : Prop :=
  r.1.data = t.1 ∧ dataP r.2.1 = t.2.1 ∧ r.2.2 = t.2.2 ∧ Inv F r.1 r.2.1

theorem readWordsM_ok {F : List Nat} {x : BufM} {p : PtrM} (h : Inv F x p) (n : Nat) :
    Rel (BPB F) (readWordsM x p n) (readWords x.data (dataP p) n) := by
  cases p with
  | none => exact .ub
  | some q =>
    have hi := (h.ptr q rfl).1
    rw [h.len] at hi
    have hc : x.files[q.pos.file]? = some x.files[q.pos.file] := List.getElem?_eq_getElem hi
    unfold readWordsM readWords
    show Rel _ _ (match x.files[q.pos.file]? with
      | none => Res.ub
      | some cur =>
      if cur.length - q.pos.pos ≥ n * x.ws % u64 then
        if n * x.ws ≤ cur.length - q.pos.pos then
          .ok (x.data, some ⟨q.pos.file, q.pos.pos + n * x.ws, q.pos.word + n⟩, (cur.drop q.pos.pos).take (n * x.ws))
        else
          .ok ({ x.data with err := true }, some ⟨q.pos.file, cur.length, q.pos.word⟩, cur.drop q.pos.pos)
      else
        match readLoop x.ws (x.files.drop (q.pos.file + 1)) cur q.pos (n * x.ws % u64) [] with
        | (none, bytes) => .ok ({ x.data with err := true }, none, bytes)
        | (some q', bytes) => .ok (x.data, some q', bytes))
    dsimp only
    rw [h.useFiles]
    simp only [Res.bind_ok]
    rw [h.useFp]
    simp only [Res.bind_ok]
    rw [hc]
    dsimp only
    by_cases h1 : x.files[q.pos.file].length - q.pos.pos ≥ n * x.ws % u64
    · rw [if_pos h1, if_pos h1]
      by_cases h2 : n * x.ws ≤ x.files[q.pos.file].length - q.pos.pos
      · rw [if_pos h2, if_pos h2]
        exact .ok ⟨rfl, rfl, rfl, h.move _ _⟩
      · rw [if_neg h2, if_neg h2]
        obtain ⟨y, e, hd, hy⟩ := setErr_ok h
        rw [e]
        exact .ok ⟨hd, rfl, rfl, hy.move _ _⟩
    · rw [if_neg h1, if_neg h1]
      obtain ⟨⟨y, p, bytes⟩, e, hr, hy, hd⟩ := readLoopM_ok (x.files.drop (q.pos.file + 1)) _ x q (n * x.ws % u64) [] h hc rfl
      rw [e]
      rw [← hr]
      dsimp only at *
      cases hp : dataP p with
      | none => rw [hp] at hd; exact .ok ⟨hd, hp, rfl, hy⟩
      | some q' => rw [hp] at hd; exact .ok ⟨hd, hp, rfl, hy⟩

theorem Inv.useErr {F : List Nat} {x : BufM} {p : PtrM} (h : Inv F x p) (he : x.err.isSome = true) :
    useArr x.mem x.err = .ok () :=
  useArr_ok h.heap he (fun b hb => by
    simp only [Option.mem_def] at hb
    simp [BufM.own, hb])

theorem readWordsAtM_ok {F : List Nat} {x : BufM} (h : Inv F x none) (n word : Nat) :
    Rel (BPB F) (readWordsAtM x n word) (readWordsAt x.data n word) := by
  obtain ⟨⟨y, p⟩, e, hd, hp, hy⟩ := seekM_ok h word
  unfold readWordsAtM readWordsAt
  rw [e]
  simp only [Res.bind_ok]
  dsimp only at hd hp hy
  generalize seek x.data word = t at hd hp
  obtain ⟨b, q⟩ := t
  dsimp only at hd hp
  subst hd hp
  dsimp only
  by_cases he : y.err.isSome = true
  · rw [if_pos he, if_pos (show y.data.err = true from he), hy.useErr he]
    simp only [Res.bind_ok]
    obtain ⟨z, e, hd, hz⟩ := setErr_ok hy
    rw [e]
    refine .ok ⟨?_, rfl, rfl, hz⟩
    rw [hd]
    show (⟨y.files, y.ws, true⟩ : Buf) = ⟨y.files, y.ws, y.err.isSome⟩
    rw [he]
  · rw [if_neg he, if_neg (show ¬ y.data.err = true from he)]
    exact readWordsM_ok hy n

theorem skipWordsM_ok {F : List Nat} {x : BufM} {p : PtrM} (h : Inv F x p) (n : Nat) :
    Rel (BP F) (skipWordsM x p n) (skipWords x.data (dataP p) n) := by
  cases p with
  | none =>
    obtain ⟨y, e, hd, hy⟩ := setErr_ok h
    unfold skipWordsM
    dsimp only
    rw [e]
    exact .ok ⟨hd, rfl, hy⟩
  | some q =>
    unfold skipWordsM skipWords
    show Rel _ _ (if ulongMax - n ≤ q.pos.word then .ok ({ x.data with err := true }, none)
      else .ok (seek x.data (q.pos.word + n)))
    dsimp only
    by_cases h1 : ulongMax - n ≤ q.pos.word
    · rw [if_pos h1, if_pos h1]
      obtain ⟨y, e, hd, hy⟩ := setErr_ok h
      rw [e]
      simp only [Res.bind_ok]
      obtain ⟨z, e, hd2, hz⟩ := closeM_ok hy
      rw [e]
      exact .ok ⟨hd2.trans hd, rfl, hz⟩
    · rw [if_neg h1, if_neg h1]
      obtain ⟨z, e, hd2, hz⟩ := closeM_ok h
      rw [e]
      simp only [Res.bind_ok]
      obtain ⟨r, e, hr⟩ := seekM_ok hz (q.pos.word + n)
      rw [e, ← hd2]
      exact .ok hr

theorem skipBytesM_ok {F : List Nat} {x : BufM} {p : PtrM} (h : Inv F x p) (n : Nat) :
    Rel (BP F) (skipBytesM x p n) (skipBytes x.data (dataP p) n) := skipWordsM_ok h _

theorem closeM_rel {F : List Nat} {x : BufM} {p : PtrM} (h : Inv F x p) :
    Rel (fun y _ => y.data = x.data ∧ Inv F y none) (closeM x p) (close (dataP p)) := by
  cases p with
  | none => exact .ub
  | some q =>
    obtain ⟨y, e, hd, hy⟩ := closeM_ok h
    rw [e]
    exact .ok ⟨hd, hy⟩

/-! ## Opening the buffer -/

theorem seek_same (b : Buf) (word : Nat) : (seek b word).1.files = b.files ∧ (seek b word).1.ws = b.ws := by
  unfold seek
  cases locate b.files 0 (word * b.ws % u64) with
  | none => exact ⟨rfl, rfl⟩
  | some ip => exact ⟨rfl, rfl⟩

theorem readWords_same {b b' : Buf} {p p' : Ptr} {n : Nat} {bytes : Bytes}
    (h : readWords b p n = .ok (b', p', bytes)) : b'.files = b.files ∧ b'.ws = b.ws := by
  unfold readWords at h
  cases p with
  | none => cases h
  | some q =>
    dsimp only at h
    cases hc : b.files[q.file]? with
    | none => rw [hc] at h; cases h
    | some cur =>
      rw [hc] at h
      dsimp only at h
      split at h
      · split at h
        · cases h; exact ⟨rfl, rfl⟩
        · cases h; exact ⟨rfl, rfl⟩
      · split at h
        · cases h; exact ⟨rfl, rfl⟩
        · cases h; exact ⟨rfl, rfl⟩

theorem readWordsAt_same {b b' : Buf} {p' : Ptr} {n word : Nat} {bytes : Bytes}
    (h : readWordsAt b n word = .ok (b', p', bytes)) : b'.files = b.files ∧ b'.ws = b.ws := by
  unfold readWordsAt at h
  have hs := seek_same b word
  generalize seek b word = t at h hs
  obtain ⟨c, q⟩ := t
  dsimp only at h hs
  split at h
  · cases h; exact hs
  · have := readWords_same h
    exact ⟨this.1.trans hs.1, this.2.trans hs.2⟩

theorem probeM_ok {F : List Nat} {x : BufM} (h : Inv F x none) (he : x.err = none) (word dflt : Nat) :
    Rel (fun r n => r.2 = n ∧ r.1.data = x.data ∧ Inv F r.1 none) (probeM x word dflt) (probe x.data word dflt) := by
  unfold probeM probe
  have hr := readWordsAtM_ok h 1 word
  cases hw : readWordsAt x.data 1 word with
  | err => rw [hw] at hr; cases hx : readWordsAtM x 1 word <;> rw [hx] at hr <;> cases hr; exact .err
  | ub => rw [hw] at hr; cases hx : readWordsAtM x 1 word <;> rw [hx] at hr <;> cases hr; exact .ub
  | abort => rw [hw] at hr; cases hx : readWordsAtM x 1 word <;> rw [hx] at hr <;> cases hr; exact .abort
  | ok t =>
    obtain ⟨b', q, bytes⟩ := t
    obtain ⟨h1, h2⟩ := readWordsAt_same hw
    rw [hw] at hr
    cases hx : readWordsAtM x 1 word with
    | err => rw [hx] at hr; cases hr
    | ub => rw [hx] at hr; cases hr
    | abort => rw [hx] at hr; cases hr
    | ok r =>
      rw [hx] at hr
      obtain ⟨y, p, bs⟩ := r
      cases hr with
      | ok hr =>
      obtain ⟨e1, e2, e3, hy⟩ := hr
      dsimp only at e1 e2 e3 hy
      subst e1 e2 e3
      simp only [Res.bind_ok]
      refine Rel.bind (closeM_rel hy) ?_
      rintro z w ⟨hd, hz⟩
      have hfl : y.files = x.files := h1
      have hws : y.ws = x.ws := h2
      have hxe : x.data = ⟨x.files, x.ws, false⟩ := by simp [BufM.data, he]
      by_cases hze : z.err.isSome = true
      · have hye : y.data.err = true := by rw [← hd]; exact hze
        rw [if_pos hze, if_pos hye]
        obtain ⟨u, e, hd2, hu⟩ := freeErr_ok hz
        rw [e]
        refine .ok ⟨rfl, ?_, hu⟩
        rw [hd2, hd, hxe]
        show (⟨y.files, y.ws, false⟩ : Buf) = _
        rw [hfl, hws]
      · have hye : ¬ y.data.err = true := by rw [← hd]; exact hze
        rw [if_neg hze, if_neg hye]
        refine .ok ⟨rfl, ?_, hz⟩
        rw [hd, hxe]
        show (⟨y.files, y.ws, y.err.isSome⟩ : Buf) = _
        have : y.err.isSome = false := Bool.eq_false_iff.2 hye
        rw [hfl, hws, this]

theorem data_err {x y : BufM} (h : y.data = x.data) (he : x.err = none) : y.err = none := by
  have := congrArg Buf.err h
  simp only [BufM.data, he] at this
  cases hy : y.err with
  | none => rfl
  | some b => rw [hy] at this; cases this

theorem probeAllM_ok {F : List Nat} {x : BufM} (h : Inv F x none) (he : x.err = none) :
    Rel (fun r n => r.2 = n ∧ r.1.data = x.data ∧ Inv F r.1 none) (probeAllM x) (probeAll x.data) := by
  unfold probeAllM probeAll
  refine Rel.bind (probeM_ok h he 15 0) ?_
  rintro a _ ⟨rfl, d1, i1⟩
  rw [← d1]
  have e1 := data_err d1 he
  refine Rel.bind (probeM_ok i1 e1 17 0) ?_
  rintro b _ ⟨rfl, d2, i2⟩
  rw [← d2]
  have e2 := data_err d2 e1
  refine Rel.bind (probeM_ok i2 e2 11 0) ?_
  rintro c _ ⟨rfl, d3, i3⟩
  rw [← d3]
  have e3 := data_err d3 e2
  refine Rel.bind (probeM_ok i3 e3 19 999) ?_
  rintro d _ ⟨rfl, d4, i4⟩
  rw [← d4]
  have e4 := data_err d4 e3
  refine Rel.bind (probeM_ok i4 e4 22 999) ?_
  rintro e _ ⟨rfl, d5, i5⟩
  exact .ok ⟨rfl, d5, i5⟩

theorem mfOpenD_ok {F : List Nat} {m : Mem} (abs : Bool) (h : Heap m F []) :
    ∃ m' f, mfOpenD abs m = .ok (m', f) ∧ Heap m' (f.own ++ F) [] ∧ f.hs = [] := by
  unfold mfOpenD
  cases abs with
  | true => exact ⟨_, _, rfl, h.alloc.perm (by simp only [FileD.own, List.map_nil]; perms), rfl⟩
  | false =>
    rw [if_neg (by decide)]
    obtain ⟨m', e, hh⟩ := Heap.free' (m := m.alloc.1.alloc.1) (b := m.alloc.2) (L := m.alloc.1.alloc.2 :: F) (D := [])
      (h.alloc.alloc.perm (by perms))
    rw [e]
    exact ⟨_, _, rfl, hh.perm (by simp only [FileD.own, List.map_nil]; perms), rfl⟩

theorem openFilesM_ok (abs : Bool) : ∀ (n : Nat) {F : List Nat} {m : Mem}, Heap m F [] →
    ∃ m' fs, openFilesM abs m n = .ok (m', fs) ∧ Heap m' (fs.flatMap FileD.own ++ F) [] ∧ fs.length = n ∧
      ∀ f ∈ fs, f.hs = [] := by
  intro n
  induction n with
  | zero => intro F m h; exact ⟨_, _, rfl, h, rfl, by simp⟩
  | succ n ih =>
    intro F m h
    obtain ⟨m1, f, e1, h1, hf⟩ := mfOpenD_ok abs h
    obtain ⟨m2, fs, e2, h2, hl, hfs⟩ := ih h1
    unfold openFilesM
    rw [e1]
    simp only [Res.bind_ok]
    rw [e2]
    refine ⟨_, _, rfl, h2.perm ?_, by simp [hl], ?_⟩
    · simp only [List.flatMap_cons]; perms
    · intro g hg
      rcases List.mem_cons.1 hg with rfl | hg
      · exact hf
      · exact hfs g hg

/-- Specification: both succeed with related results, or one returns a handle with an error where the other one fails. -/
inductive ORel {α β : Type} (R : α → β → Prop) (E : α → Prop) : Res α → Res β → Prop
  | ok {a : α} {b : β} (h : R a b) : ORel R E (.ok a) (.ok b)
  | err {a : α} (h : E a) : ORel R E (.ok a) .err
  | ub : ORel R E .ub .ub
  | abort : ORel R E .abort .abort

theorem Rel.bindO {α β γ δ : Type} {R : α → β → Prop} {S : γ → δ → Prop} {E : γ → Prop} {x : Res α} {y : Res β}
    {f : α → Res γ} {g : β → Res δ} (h : Rel R x y) (hy : y ≠ .err) (hf : ∀ a b, R a b → ORel S E (f a) (g b)) :
    ORel S E (x >>= f) (y >>= g) := by
  cases h with
  | ok h => exact hf _ _ h
  | ub => exact .ub
  | err => exact absurd rfl hy
  | abort => exact .abort

theorem readWords_noerr (b : Buf) (p : Ptr) (n : Nat) : readWords b p n ≠ .err := by
  unfold readWords
  cases p with
  | none => intro h; cases h
  | some q =>
    dsimp only
    cases b.files[q.file]? with
    | none => intro h; cases h
    | some cur =>
      dsimp only
      split
      · split <;> (intro h; cases h)
      · split <;> (intro h; cases h)

theorem readWordsAt_noerr (b : Buf) (n word : Nat) : readWordsAt b n word ≠ .err := by
  unfold readWordsAt
  generalize seek b word = t
  obtain ⟨c, q⟩ := t
  dsimp only
  split
  · intro h; cases h
  · exact readWords_noerr _ _ _

theorem bind_noerr {α β : Type} {x : Res α} {f : α → Res β} (h : x ≠ .err) (hf : ∀ a, f a ≠ .err) :
    (x >>= f) ≠ .err := by
  cases x with
  | ok a => exact hf a
  | err => exact absurd rfl h
  | ub => intro h; cases h
  | abort => intro h; cases h

theorem close_noerr (p : Ptr) : close p ≠ .err := by
  cases p <;> (intro h; cases h)

theorem probe_noerr (b : Buf) (w d : Nat) : probe b w d ≠ .err := by
  unfold probe
  refine bind_noerr (readWordsAt_noerr _ _ _) (fun a => ?_)
  obtain ⟨c, q, bytes⟩ := a
  refine bind_noerr (close_noerr _) (fun _ => ?_)
  split <;> (intro h; cases h)

theorem probeAll_noerr (b : Buf) : probeAll b ≠ .err := by
  unfold probeAll
  refine bind_noerr (probe_noerr _ _ _) (fun _ => ?_)
  refine bind_noerr (probe_noerr _ _ _) (fun _ => ?_)
  refine bind_noerr (probe_noerr _ _ _) (fun _ => ?_)
  refine bind_noerr (probe_noerr _ _ _) (fun _ => ?_)
  refine bind_noerr (probe_noerr _ _ _) (fun _ => ?_)
  intro h; cases h

theorem detectM_ok {F : List Nat} {x : BufM} (h : Inv F x none) (he : x.err = none) (hne : x.files ≠ []) :
    ORel (fun y b => y.data = b ∧ Inv F y none) (fun y => y.err.isSome = true ∧ Inv F y none) (detectM x)
      (openBuf x.files) := by
  unfold detectM openBuf
  rw [if_neg hne]
  obtain ⟨m', b, e, hh⟩ := Heap.realloc (m := x.mem) (o := x.arr)
    (L := x.root.toList ++ (x.err.toList ++ (x.fs.flatMap FileD.own ++ F))) (D := []) (h.heap.perm (by
      simp only [BufM.own]; perms))
  rw [e]
  simp only [Res.bind_ok]
  have h4 : Inv F { x with mem := m', arr := some b, ws := 4 } none :=
    ⟨hh.perm (by simp only [BufM.own]; perms), rfl, h.len, h.ok, h.ptr⟩
  have d4 : BufM.data { x with mem := m', arr := some b, ws := 4 } = ⟨x.files, 4, false⟩ := by simp [BufM.data, he]
  rw [← d4]
  refine Rel.bindO (probeAllM_ok h4 he) (probeAll_noerr _) ?_
  rintro ⟨y, s32⟩ _ ⟨rfl, dy, iy⟩
  dsimp only at dy iy ⊢
  have fy : y.files = x.files := congrArg Buf.files dy
  have ey : y.err = none := data_err dy he
  have h8 : Inv F { y with ws := 8 } none := ⟨iy.heap, iy.arr, iy.len, iy.ok, iy.ptr⟩
  have d8 : BufM.data { y with ws := 8 } = ⟨x.files, 8, false⟩ := by simp [BufM.data, ey, fy]
  rw [← d8]
  refine Rel.bindO (probeAllM_ok h8 ey) (probeAll_noerr _) ?_
  rintro ⟨z, s64⟩ _ ⟨rfl, dz, iz⟩
  dsimp only at dz iz ⊢
  by_cases hs : ((!s32 && !s64) || (s32 && s64)) = true
  · rw [if_pos hs, if_pos hs]
    obtain ⟨u, e, hd, hu⟩ := setErr_ok iz
    rw [e]
    exact .err ⟨congrArg Buf.err hd, hu⟩
  · rw [if_neg hs, if_neg hs]
    refine .ok ⟨?_, ⟨iz.heap, iz.arr, iz.len, iz.ok, iz.ptr⟩⟩
    have fz : z.files = x.files := (congrArg Buf.files dz).trans fy
    have ez : z.err = none := data_err dz ey
    simp [BufM.data, fz, ez]

theorem openBufM_ok {F : List Nat} {m : Mem} (abs : Bool) (files : List Bytes) (h : Heap m F []) :
    ORel (fun y b => y.data = b ∧ Inv F y none) (fun y => y.err.isSome = true ∧ Inv F y none) (openBufM abs m files)
      (openBuf files) := by
  unfold openBufM
  obtain ⟨m1, fs, e1, h1, hl, hfs⟩ := openFilesM_ok abs files.length h.alloc.alloc.alloc
  rw [e1]
  simp only [Res.bind_ok]
  obtain ⟨m2, e2, h2⟩ := Heap.free' (m := m1) (b := m.alloc.1.alloc.1.alloc.2)
    (L := fs.flatMap FileD.own ++ (m.alloc.1.alloc.2 :: m.alloc.2 :: F)) (D := []) (h1.perm (by perms))
  rw [e2]
  simp only [Res.bind_ok]
  have hi : Inv F ⟨m2, files, 0, some m.alloc.2, some m.alloc.1.alloc.2, none, fs⟩ none := by
    refine ⟨h2.perm (by simp only [BufM.own]; perms), rfl, hl, ?_, ?_⟩
    · intro i f hf
      exact .inl (hfs f (List.mem_of_getElem? hf))
    · intro q hq; cases hq
  by_cases hne : files = []
  · rw [if_pos hne]
    unfold openBuf
    rw [if_pos hne]
    obtain ⟨u, e, hd, hu⟩ := setErr_ok hi
    rw [e]
    exact .err ⟨congrArg Buf.err hd, hu⟩
  · rw [if_neg hne]
    exact detectM_ok hi rfl hne

/-! ## Opening -/

/-- The state of `d3plot_open` while there is no error. -/
structure Good (F : List Nat) (s : SM) (t : S) : Prop where
  b : s.h.x.data = t.b
  p : dataP s.p = t.p
  inv : Inv (s.h.dp.toList ++ F) s.h.x s.p
  perr : s.h.perr = none
  dp : s.h.dp.isSome = true

/-- The state of a file whose `error_string` is set: at most one handle is in use. -/
def Failed (F : List Nat) (h : Han) : Prop :=
  h.perr.isSome = true ∧ ∃ p, Inv (h.perr.toList ++ (h.dp.toList ++ F)) h.x p

/-- Specification: both go on in the same state, or both fail. -/
inductive Out {α : Type} (F : List Nat) : Res (SM × Option α) → Res (α × S) → Prop
  | ok {s : SM} {t : S} {a : α} (h : Good F s t) : Out F (.ok (s, some a)) (.ok (a, t))
  | err {s : SM} (h : Failed F s.h) : Out F (.ok (s, none)) .err
  | ub : Out F .ub .ub
  | abort : Out F .abort .abort

/-- Specification: the two versions of a part of `d3plot_open` agree. -/
def Sim {α : Type} (F : List Nat) (mm : MM α) (m : M α) : Prop := ∀ s t, Good F s t → Out F (mm s) (m t)

theorem Sim.ret {α : Type} {F : List Nat} (a : α) : Sim F (pure a : MM α) (pure a : M α) :=
  fun _ _ h => .ok h

theorem Sim.bind {α β : Type} {F : List Nat} {mm : MM α} {m : M α} {f : α → MM β} {g : α → M β}
    (h : Sim F mm m) (hf : ∀ a, Sim F (f a) (g a)) : Sim F (mm >>= f) (m >>= g) := by
  intro s t hs
  show Out F ((mm s) >>= MM.next f) (match m t with
    | .ok (a, s') => g a s'
    | .err => .err
    | .ub => .ub
    | .abort => .abort)
  have := h s t hs
  generalize mm s = x at this
  generalize m t = y at this
  cases this with
  | ok h => exact hf _ _ _ h
  | err h => exact .err h
  | ub => exact .ub
  | abort => exact .abort

theorem Sim.ite {α : Type} {F : List Nat} {c : Prop} [Decidable c] {a b : MM α} {a' b' : M α}
    (h1 : Sim F a a') (h2 : Sim F b b') : Sim F (if c then a else b) (if c then a' else b') := by
  split
  · exact h1
  · exact h2

theorem setPErr_ok {F : List Nat} {h : Han} {p : PtrM} (hi : Inv (h.perr.toList ++ (h.dp.toList ++ F)) h.x p) :
    ∃ h', setPErr h = .ok h' ∧ h'.perr.isSome = true ∧ h'.dp = h.dp ∧ h'.x.data = h.x.data ∧
      Inv (h'.perr.toList ++ (h'.dp.toList ++ F)) h'.x p := by
  obtain ⟨m', e, hh⟩ := Heap.freeOpt (m := h.x.mem) (o := h.perr) (L := h.x.own ++ (h.dp.toList ++ F)) (D := [])
    (hi.heap.perm (by perms))
  unfold setPErr
  rw [e]
  exact ⟨_, rfl, rfl, rfl, rfl, hi.other (hh.alloc.perm (by perms))⟩

theorem clearPErr_ok {F : List Nat} {h : Han} {p : PtrM} (hi : Inv (h.perr.toList ++ (h.dp.toList ++ F)) h.x p) :
    ∃ h', clearPErr h = .ok h' ∧ h'.perr = none ∧ h'.dp = h.dp ∧ h'.x.data = h.x.data ∧
      Inv (h'.dp.toList ++ F) h'.x p := by
  obtain ⟨m', e, hh⟩ := Heap.freeOpt (m := h.x.mem) (o := h.perr) (L := h.x.own ++ (h.dp.toList ++ F)) (D := [])
    (hi.heap.perm (by perms))
  unfold clearPErr
  rw [e]
  exact ⟨_, rfl, rfl, rfl, rfl, hi.other hh⟩

theorem Sim.fail {α : Type} {F : List Nat} : Sim F (failM : MM α) (fail : M α) := by
  intro s t h
  obtain ⟨h', e, h1, h2, h3, h4⟩ := setPErr_ok (h := s.h) (F := F) (p := s.p) (by rw [h.perr]; exact h.inv)
  unfold failM
  rw [e]
  exact .err ⟨h1, _, h4⟩

theorem Sim.failClose {α : Type} {F : List Nat} : Sim F (failCloseM : MM α) (failClose : M α) := by
  intro s t h
  unfold failCloseM D3.failClose
  rw [← h.p]
  cases hp : s.p with
  | none => exact .ub
  | some q =>
    have hi := h.inv
    rw [hp] at hi
    obtain ⟨y, e, hd, hy⟩ := closeM_ok hi
    rw [e]
    simp only [Res.bind_ok]
    obtain ⟨h', e, h1, h2, h3, h4⟩ := setPErr_ok (h := { s.h with x := y }) (F := F) (p := none) (by
      show Inv (s.h.perr.toList ++ _) _ _
      rw [h.perr]; exact hy)
    rw [e]
    exact .err ⟨h1, _, h4⟩

theorem Sim.undef {α : Type} {F : List Nat} : Sim F (undefM : MM α) (undef : M α) := fun _ _ _ => .ub

theorem Sim.rdBytes {F : List Nat} (n : Nat) : Sim F (rdBytesM n) (rdBytes n) := by
  intro s t h
  unfold rdBytesM D3.rdBytes
  rw [← h.b, ← h.p]
  have hr := readWordsM_ok h.inv n
  generalize readWordsM s.h.x s.p n = x at hr
  generalize hy : readWords s.h.x.data (dataP s.p) n = y at hr
  cases hr with
  | ok hr =>
    rename_i a b
    obtain ⟨y, p, bs⟩ := a
    obtain ⟨b1, p1, bs1⟩ := b
    obtain ⟨h1, h2, h3, h4⟩ := hr
    dsimp only at h1 h2 h3 h4
    subst h3
    exact .ok ⟨h1, h2, h4, h.perr, h.dp⟩
  | ub => exact .ub
  | err => exact absurd hy (readWords_noerr _ _ _)
  | abort => exact .abort

theorem Sim.rd {F : List Nat} : Sim F rdM D3.rd := Sim.bind (Sim.rdBytes 1) (fun _ => Sim.ret _)

theorem Good.ws {F : List Nat} {s : SM} {t : S} (h : Good F s t) : s.h.x.ws = t.b.ws := congrArg Buf.ws h.b

theorem Sim.rdSigned {F : List Nat} : Sim F rdSignedM rdSigned := by
  intro s t h
  unfold rdSignedM D3.rdSigned
  show Out F ((rdM s) >>= MM.next fun w => pure (signed s.h.x.ws w)) _
  rw [h.ws]
  have := Sim.rd s t h
  generalize rdM s = x at this
  generalize D3.rd t = y at this
  cases this with
  | ok h => exact .ok h
  | err h => exact .err h
  | ub => exact .ub
  | abort => exact .abort

theorem skipWords_noerr (b : Buf) (p : Ptr) (n : Nat) : skipWords b p n ≠ .err := by
  unfold skipWords
  cases p with
  | none => intro h; cases h
  | some q => dsimp only; split <;> (intro h; cases h)

theorem Sim.skip {F : List Nat} (n : Nat) : Sim F (skipM n) (skip n) := by
  intro s t h
  unfold skipM D3.skip
  rw [← h.b, ← h.p]
  have hr := skipWordsM_ok h.inv n
  generalize skipWordsM s.h.x s.p n = x at hr
  generalize hy : skipWords s.h.x.data (dataP s.p) n = y at hr
  cases hr with
  | ok hr => exact .ok ⟨hr.1, hr.2.1, hr.2.2, h.perr, h.dp⟩
  | ub => exact .ub
  | err => exact absurd hy (skipWords_noerr _ _ _)
  | abort => exact .abort

theorem Sim.skipIf {F : List Nat} (c : Prop) [Decidable c] (n : Nat) : Sim F (skipIfM c n) (skipIf c n) :=
  Sim.ite (Sim.skip n) (Sim.ret ())

theorem Sim.skipB {F : List Nat} (n : Nat) : Sim F (skipBM n) (skipB n) := by
  intro s t h
  unfold skipBM D3.skipB
  rw [h.ws]
  exact Sim.skip _ s t h

theorem Sim.hasErr {F : List Nat} : Sim F hasErrM hasErr := by
  intro s t h
  unfold hasErrM D3.hasErr
  rw [← h.b]
  exact .ok h

theorem Sim.clearErr {F : List Nat} : Sim F clearErrM clearErr := by
  intro s t h
  obtain ⟨y, e, hd, hy⟩ := freeErr_ok h.inv
  unfold clearErrM D3.clearErr
  rw [e]
  refine .ok ⟨?_, h.p, hy, h.perr, h.dp⟩
  show y.data = _
  rw [hd, h.b]

theorem Sim.curWord {F : List Nat} : Sim F curWordM curWord := by
  intro s t h
  unfold curWordM D3.curWord
  rw [← h.p]
  cases hp : s.p with
  | none => exact .ok h
  | some q => exact .ok h

theorem Sim.wordSize {F : List Nat} : Sim F wordSizeM wordSize := by
  intro s t h
  unfold wordSizeM D3.wordSize
  rw [h.ws]
  exact .ok h

theorem Sim.toNextFile {F : List Nat} : Sim F toNextFileM toNextFile := by
  intro s t h
  unfold toNextFileM D3.toNextFile
  rw [← h.b, ← h.p]
  cases hp : s.p with
  | none => exact .ub
  | some q =>
    have hi := h.inv
    rw [hp] at hi
    have hlt := (hi.ptr q rfl).1
    rw [hi.len] at hlt
    obtain ⟨⟨y, p⟩, e, hd, hy, hq⟩ := nextFileM_ok hi (List.getElem?_eq_getElem hlt)
    have hn : nextFile s.h.x.data (dataP (some q)) = .ok (dataP p) := by
      unfold nextFile
      show (match s.h.x.files[q.pos.file]? with
        | none => Res.ub
        | some cur => if q.pos.file + 1 = s.h.x.files.length then Res.ok (none : Ptr)
          else .ok (some (Pos.mk (q.pos.file + 1) 0 (q.pos.word + (cur.length - q.pos.pos) / s.h.x.ws)))) = _
      rw [List.getElem?_eq_getElem hlt]
      dsimp only at hq ⊢
      rw [hq]
      split <;> rfl
    rw [hn, e]
    simp only [Res.bind_ok]
    have : p.isSome = (dataP p).isSome := by cases p <;> rfl
    rw [this]
    exact Out.ok (s := SM.mk { s.h with x := y } p) (t := S.mk s.h.x.data (dataP p)) ⟨hd, rfl, hy, h.perr, h.dp⟩

theorem Sim.grow {F : List Nat} (d : Ptrs) (start : Nat) :
    Sim F (growM d start) (pure (d, .state start) : M (Ptrs × D3.Found)) := by
  intro s t h
  obtain ⟨m', b, e, hh⟩ := Heap.realloc (m := s.h.x.mem) (o := s.h.dp) (L := s.h.x.own ++ F) (D := [])
    (h.inv.heap.perm (by perms))
  unfold growM
  rw [e]
  exact .ok (s := { s with h := { s.h with x := { s.h.x with mem := m' }, dp := some b } })
    ⟨h.b, h.p, h.inv.other (hh.perm (by perms)), h.perr, rfl⟩

end Dyna.D3Mem
