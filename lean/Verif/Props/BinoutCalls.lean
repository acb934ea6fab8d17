import Verif.BinoutCalls
import Verif.Props.BinoutMem
import Verif.Props.BinoutTimedError
/-!
# C92: memory and file handles of the calls on an open binout
-/

namespace Dyna.BinoutCalls

open Dyna.KeyMem Dyna.BinoutMem

/-! ## Specification -/

/-- Specification: what a call gives and the binout afterwards (only its error string changes), without memory. -/
def answer (b : BinFile) : Call → Res (Got × BinFile)
  | .typeId p => do let r ← sessTypeId b p; .ok (.type r.1, r.2)
  | .isThere p => do let r ← sessExists b p; .ok (.yesNo r.1, r.2)
  | .children p => do let r ← sessChildren b p; .ok (.names r.1, r.2)
  | .read p ty => do let r ← sessRead [] b p ty; .ok (.data r.1, r.2)
  | .readTimed p ty => do let r ← sessTimed b p ty; .ok (.timed r.1, r.2)
  | .numSteps p => do let r ← numTimesteps b.kids p; .ok (.steps r, b)
  | .simplePath p => do let r ← simplePathToReal b.kids p; .ok (.real r, b)
  | .message => .ok (.message b.error, b)

/-- Specification: the names are handed out in a block if there are any. -/
def someNames : Option (List Bytes) → Bool
  | some (_ :: _) => true
  | _ => false

/-- Specification: the results that are handed out in a block of memory. -/
def gives : Got → Bool
  | .names l => someNames l
  | .data d => d.isSome
  | .timed d => d.isSome
  | .real r => r.1.isSome
  | .message t => t.isSome
  | _ => false

/-- Specification: an open binout in which no variable has got the name of a folder. -/
structure Core (c : BinM) : Prop where
  ok : Ok c.blk c.kids
  dang : dangL c.kids = []
  files : ∀ f ∈ c.files, f.handles.isSome = true ∧ f.content.isSome = true ∧ f.fp.isSome = true
  arr : c.fb = none → c.files = []

/-- Specification: directory and files are those of `c`, the handles in use are `busy`, and besides the blocks of the
binout exactly `base` is allocated. -/
structure Good (c : BinM) (base busy : List Nat) (s : Sess) : Prop where
  bin : s.bin = { c with err := s.bin.err }
  err : s.bin.err.isSome = s.text.isSome
  busy : s.busy = busy
  heap : Heap s.mem (s.bin.blks ++ (c.fb.toList ++ base)) []

/-- The binout without its blocks. -/
def fileOf (c : BinM) (t : Option Bytes) : BinFile := ⟨eraseL c.kids, c.files.map (·.content), t⟩

theorem Good.kids {c : BinM} {base busy : List Nat} {s : Sess} (h : Good c base busy s) : s.bin.kids = c.kids := by
  rw [h.bin]
theorem Good.blk {c : BinM} {base busy : List Nat} {s : Sess} (h : Good c base busy s) : s.bin.blk = c.blk := by
  rw [h.bin]
theorem Good.files {c : BinM} {base busy : List Nat} {s : Sess} (h : Good c base busy s) : s.bin.files = c.files := by
  rw [h.bin]
theorem Good.fb {c : BinM} {base busy : List Nat} {s : Sess} (h : Good c base busy s) : s.bin.fb = c.fb := by
  rw [h.bin]

theorem Good.file {c : BinM} {base busy : List Nat} {s : Sess} (h : Good c base busy s) : s.file = fileOf c s.text := by
  unfold Sess.file fileOf
  rw [h.kids, h.files]

theorem Good.perm {c : BinM} {base base' busy : List Nat} {s : Sess} (h : Good c base busy s) (p : base.Perm base') :
    Good c base' busy s :=
  ⟨h.bin, h.err, h.busy, h.heap.perm (by
    refine List.Perm.append_left _ (List.Perm.append_left _ p))⟩

theorem Good.blks {c : BinM} {base busy : List Nat} {s : Sess} (h : Good c base busy s) :
    s.bin.blks = tree c.blk c.kids ++ fblksL c.files ++ s.bin.err.toList := by
  unfold BinM.blks
  rw [h.kids, h.blk, h.files]

/-! ## Look-ups -/

mutual
theorem reads_blks (e : EntryM) (h : dang e = []) : ∀ b ∈ reads e, b ∈ blks e := by
  cases e with
  | file n nb i => intro b hb; exact hb
  | folder n nb fr blk kids =>
    have hfr : fr = false := by cases fr <;> simp [BinoutMem.dang] at h ⊢
    subst hfr
    have hk : dangL kids = [] := by simpa [BinoutMem.dang] using h
    intro b hb
    rw [blks_folder]
    rw [reads] at hb
    rcases List.mem_cons.1 hb with e | hb
    · subst e; simp
    · rcases List.mem_append.1 hb with hb | hb
      · simp [tree, List.mem_append, hb]
      · simp [tree, readsL_blks kids hk b hb]
theorem readsL_blks (l : List EntryM) (h : dangL l = []) : ∀ b ∈ readsL l, b ∈ blksL l := by
  cases l with
  | nil => intro b hb; exact hb
  | cons e l =>
    have hk : dang e = [] ∧ dangL l = [] := by simpa [dangL] using h
    intro b hb
    rw [readsL] at hb
    rw [blksL]
    rcases List.mem_append.1 hb with hb | hb
    · exact List.mem_append_left _ (reads_blks e hk.1 b hb)
    · exact List.mem_append_right _ (readsL_blks l hk.2 b hb)
end

theorem useAll_ok {m : Mem} : ∀ (l : List Nat), (∀ b ∈ l, b ∈ m.live) → m.useAll l = .ok () := by
  intro l
  induction l with
  | nil => intro _; rfl
  | cons b l ih =>
    intro h
    unfold Mem.useAll Mem.use
    rw [if_pos (h b (by simp))]
    exact ih (fun x hx => h x (by simp [hx]))

theorem Good.look {c : BinM} (hc : Core c) {base busy : List Nat} {s : Sess} (h : Good c base busy s) :
    s.look = .ok () := by
  unfold Sess.look
  apply useAll_ok
  intro b hb
  rw [h.heap.live_iff, h.blks, tree]
  rw [h.kids, h.blk] at hb
  rcases List.mem_append.1 hb with hb | hb
  · simp only [List.mem_append]; exact .inl (.inl (.inl (.inl hb)))
  · simp only [List.mem_append]; exact .inl (.inl (.inl (.inr (readsL_blks _ hc.dang b hb))))

/-! ## The error string -/

theorem Good.clear {c : BinM} {base busy : List Nat} {s : Sess} (h : Good c base busy s) :
    ∃ s', s.clear = .ok s' ∧ Good c base busy s' ∧ s'.text = none ∧ s'.file = clearError s.file := by
  have h1 : Heap s.mem (s.bin.err.toList ++ (tree c.blk c.kids ++ (fblksL c.files ++ (c.fb.toList ++ base)))) [] :=
    h.heap.perm (by rw [h.blks]; perms)
  obtain ⟨m, e, h2⟩ := h1.freeOpt
  refine ⟨{ s with mem := m, bin := { s.bin with err := none }, text := none },
    by unfold Sess.clear; simp only [e, Res.bind_ok], ⟨?_, rfl, h.busy, ?_⟩, rfl, ?_⟩
  · dsimp only; rw [h.bin]
  · refine h2.perm ?_
    simp only [BinM.blks, h.kids, h.blk, h.files]
    perms
  · rfl

theorem Good.fail {c : BinM} {base busy : List Nat} {s : Sess} {b : BinFile} (h : Good c base busy s) (text : Bytes)
    (hb : s.file.kids = b.kids ∧ s.file.files = b.files) :
    Rel (fun s' b' => Good c base busy s' ∧ s'.file = b') (s.fail text) (newError b text) := by
  unfold Sess.fail newError
  split
  · exact .ub
  · have h1 : Heap s.mem (s.bin.err.toList ++ (tree c.blk c.kids ++ (fblksL c.files ++ (c.fb.toList ++ base)))) [] :=
      h.heap.perm (by rw [h.blks]; perms)
    obtain ⟨m, e, h2⟩ := h1.freeOpt
    simp only [e, Res.bind_ok]
    refine .ok ⟨⟨?_, rfl, h.busy, ?_⟩, ?_⟩
    · dsimp only; rw [h.bin]
    · refine h2.alloc.perm ?_
      simp only [BinM.blks, h.kids, h.blk, h.files]
      perms
    · unfold Sess.file at *
      obtain ⟨k, f, t⟩ := b
      dsimp only at hb ⊢
      rw [hb.1, hb.2]

/-! ## Handles and blocks -/

theorem Good.alloc {c : BinM} {base busy : List Nat} {s : Sess} (h : Good c base busy s) :
    Good c (s.mem.alloc.2 :: base) busy { s with mem := s.mem.alloc.1 } :=
  ⟨h.bin, h.err, h.busy, h.heap.alloc.perm (by dsimp only; perms)⟩

theorem Good.free {c : BinM} {base busy : List Nat} {b : Nat} {s : Sess} (h : Good c (b :: base) busy s) :
    ∃ m, s.mem.free b = .ok m ∧ Good c base busy { s with mem := m } := by
  have h1 : Heap s.mem (b :: (s.bin.blks ++ (c.fb.toList ++ base))) [] := h.heap.perm (by perms)
  obtain ⟨m, e, h2⟩ := h1.free'
  exact ⟨m, e, h.bin, h.err, h.busy, h2⟩

theorem Good.use {c : BinM} {base busy : List Nat} {b : Nat} {s : Sess} (h : Good c base busy s) (hb : b ∈ base) :
    s.mem.use b = .ok () := h.heap.use (by simp [hb])

theorem Good.access {c : BinM} (hc : Core c) {base busy : List Nat} {s : Sess} (h : Good c base busy s) (i : Nat)
    (hi : i ∉ busy) :
    (s.access i = .ub ∧ s.file.files[i]? = none) ∨
    ∃ x, s.access i = .ok ({ s with busy := i :: busy }, x) ∧ s.file.files[i]? = some (some x) ∧
      Good c base (i :: busy) { s with busy := i :: busy } := by
  unfold Sess.access Sess.file
  rw [h.files]
  cases hf : c.files[i]? with
  | none => left; simp [hf]
  | some f =>
    right
    have hm := List.mem_of_getElem? hf
    obtain ⟨h1, h2, h3⟩ := hc.files f hm
    obtain ⟨hh, e1⟩ := Option.isSome_iff_exists.1 h1
    obtain ⟨x, e2⟩ := Option.isSome_iff_exists.1 h2
    obtain ⟨hp, e3⟩ := Option.isSome_iff_exists.1 h3
    have hl : ∀ b ∈ fblksL c.files, s.mem.use b = .ok () := fun b hb => h.heap.use (by rw [h.blks]; simp [hb])
    have u1 : s.mem.use hh = .ok () := hl hh (List.mem_flatMap.2 ⟨f, hm, by simp [fblks, e1]⟩)
    have u2 : s.mem.use hp = .ok () := hl hp (List.mem_flatMap.2 ⟨f, hm, by simp [fblks, e3]⟩)
    have u3 : useArr s.mem c.fb = .ok () := by
      cases hfb : c.fb with
      | none => rw [hc.arr hfb] at hm; simp at hm
      | some b => exact h.heap.use (by simp [hfb])
    refine ⟨x, ?_, by simp [hf, e2], h.bin, h.err, rfl, h.heap⟩
    dsimp only
    rw [e1, e2, e3]
    dsimp only
    rw [h.busy, if_neg hi, h.fb]
    simp only [u1, u2, u3, Res.bind_ok]

theorem Good.giveBack {c : BinM} {base busy : List Nat} {s : Sess} {i : Nat} (h : Good c base (i :: busy) s) :
    s.giveBack i = .ok { s with busy := busy } ∧ Good c base busy { s with busy := busy } := by
  refine ⟨?_, h.bin, h.err, rfl, h.heap⟩
  unfold Sess.giveBack
  rw [h.busy, if_pos (by simp)]
  simp

/-! ## The calls without time steps -/

/-- Specification: a call that agrees with the answer; `base` and the block it hands out are allocated afterwards. -/
def Agrees {α : Type} (g : α → Bool) (c : BinM) (base : List Nat) (x : Sess × Option Nat × α) (y : α × BinFile) : Prop :=
  Good c (x.2.1.toList ++ base) [] x.1 ∧ x.2.2 = y.1 ∧ x.1.file = y.2 ∧ x.2.1.isSome = g y.1

theorem typeIdM_ok {c : BinM} (hc : Core c) {base : List Nat} {s : Sess} (h : Good c base [] s) (p : Bytes) :
    Rel (fun x y => Good c base [] x.1 ∧ x.2 = y.1 ∧ x.1.file = y.2) (typeIdM s p) (sessTypeId s.file p) := by
  unfold typeIdM sessTypeId
  obtain ⟨s1, e1, h1, ht, hf⟩ := h.clear
  simp only [e1, Res.bind_ok, h1.look hc]
  refine Rel.bind (R := fun a b => a = b) ?_ ?_
  · have : eraseL s1.bin.kids = (clearError s.file).kids := by rw [h1.kids]; unfold Sess.file; rw [h.kids]; rfl
    rw [this]
    have := Rel.self (getFile (clearError s.file).kids p)
    generalize getFile (clearError s.file).kids p = x at this ⊢
    cases this with
    | ok h => exact .ok h.1
    | ub => exact .ub
    | err => exact .err
    | abort => exact .abort
  · rintro a _ rfl
    cases a with
    | none =>
      refine Rel.bind (h1.fail _ (by rw [hf]; exact ⟨rfl, rfl⟩)) ?_
      rintro s2 b ⟨h2, e⟩
      exact .ok ⟨h2, rfl, e⟩
    | some i => exact .ok ⟨h1, rfl, hf⟩

theorem rel_eq {α : Type} (x : Res α) : Rel (fun a b : α => a = b) x x := by
  cases x with
  | ok a => exact .ok rfl
  | ub => exact .ub
  | err => exact .err
  | abort => exact .abort

theorem existsM_ok {c : BinM} (hc : Core c) {base : List Nat} {s : Sess} (h : Good c base [] s) (p : Bytes) :
    Rel (fun x y => Good c base [] x.1 ∧ x.2 = y.1 ∧ x.1.file = y.2) (existsM s p) (sessExists s.file p) := by
  unfold existsM sessExists
  simp only [Res.bind_ok, h.look hc]
  refine Rel.bind (rel_eq _) ?_
  rintro a _ rfl
  cases a with
  | none => exact .ok ⟨h, rfl, rfl⟩
  | some i => exact .ok ⟨h, rfl, rfl⟩

theorem childrenM_ok {c : BinM} (hc : Core c) {base : List Nat} {s : Sess} (h : Good c base [] s) (p : Bytes) :
    Rel (Agrees someNames c base) (childrenM s p) (sessChildren s.file p) := by
  unfold childrenM sessChildren
  simp only [Res.bind_ok, h.look hc]
  refine Rel.bind (rel_eq _) ?_
  rintro a _ rfl
  cases a with
  | none => exact .ok ⟨h, rfl, rfl, rfl⟩
  | some l =>
    cases l with
    | nil => exact .ok ⟨h, rfl, rfl, rfl⟩
    | cons n l => exact .ok ⟨h.alloc, rfl, rfl, rfl⟩

theorem messageM_ok {c : BinM} {base : List Nat} {s : Sess} (h : Good c base [] s) :
    ∃ x, messageM s = .ok x ∧ Agrees Option.isSome c base x (s.file.error, s.file) := by
  unfold messageM
  have he := h.err
  cases hb : s.bin.err with
  | none =>
    rw [hb] at he
    refine ⟨_, rfl, h, ?_, rfl, ?_⟩
    · cases ht : s.text with
      | none => exact ht.symm
      | some t => rw [ht] at he; cases he
    · exact he
  | some b =>
    have hu : s.mem.use b = .ok () := h.heap.use (by rw [h.blks, hb]; simp)
    simp only [hu, Res.bind_ok]
    exact ⟨_, rfl, h.alloc, rfl, rfl, by rw [hb] at he; exact he⟩

theorem numStepsM_ok {c : BinM} (hc : Core c) {base : List Nat} {s : Sess} (h : Good c base [] s) (p : Bytes) :
    Rel (fun x y => Good c base [] x.1 ∧ x.2 = y ∧ x.1.file = s.file) (numStepsM s p) (numTimesteps s.file.kids p) := by
  unfold numStepsM
  simp only [Res.bind_ok, h.look hc]
  have := rel_eq (numTimesteps s.file.kids p)
  change Rel _ (numTimesteps s.file.kids p >>= _) _
  generalize numTimesteps s.file.kids p = x at this ⊢
  cases this with
  | ok e => exact .ok ⟨h, rfl, rfl⟩
  | ub => exact .ub
  | err => exact .err
  | abort => exact .abort

theorem readDataM_ok {c : BinM} (hc : Core c) {base : List Nat} {s : Sess} (h : Good c base [] s) (p : Bytes)
    (i : FileInfo) (ty : Nat) (b : BinFile) (hb : s.file = b) :
    Rel (Agrees Option.isSome c base) (readDataM s p i ty)
      (match b.files[i.fileIndex]? with
      | none => .ub
      | some none => do
        let b ← newError b (bs "Failed to access file of \"" ++ p ++ bs "\": " ++ [])
        .ok (none, b)
      | some (some c) =>
        if i.filePos ≥ u64 / 2 then do
          let b ← newError b (bs "Failed to seek to the position of \"" ++ p ++ bs "\"")
          .ok (none, b)
        else match freadObj c i.filePos i.size with
          | none => do
            let b ← newError b (bs "Failed to read \"" ++ p ++ bs "\"")
            .ok (none, b)
          | some d => .ok (some (d, i.size / typeSize ty), b)) := by
  subst hb
  unfold readDataM
  rcases h.access hc i.fileIndex (by simp) with ⟨e1, e2⟩ | ⟨x, e1, e2, h1⟩
  · rw [e1, e2]; exact .ub
  · rw [e1, e2]
    simp only [Res.bind_ok]
    split
    · obtain ⟨e3, h2⟩ := h1.giveBack
      rw [e3]
      simp only [Res.bind_ok]
      refine Rel.bind (h2.fail _ ⟨rfl, rfl⟩) ?_
      rintro s2 b ⟨h3, e⟩
      exact .ok ⟨h3, rfl, e, rfl⟩
    · have h2 := h1.alloc
      cases freadObj x i.filePos i.size with
      | none =>
        obtain ⟨m, e3, h3⟩ := h2.free
        obtain ⟨e4, h4⟩ := h3.giveBack
        dsimp only at e3 e4 h4 ⊢
        simp only [e3, e4, Res.bind_ok]
        refine Rel.bind (h4.fail _ ⟨rfl, rfl⟩) ?_
        rintro s2 b ⟨h5, e⟩
        exact .ok ⟨h5, rfl, e, rfl⟩
      | some d =>
        obtain ⟨e4, h4⟩ := h2.giveBack
        dsimp only at e4 h4 ⊢
        simp only [e4, Res.bind_ok]
        exact .ok ⟨h4, rfl, rfl, rfl⟩

theorem readM_ok {c : BinM} (hc : Core c) {base : List Nat} {s : Sess} (h : Good c base [] s) (p : Bytes) (ty : Nat) :
    Rel (Agrees Option.isSome c base) (readM s p ty) (sessRead [] s.file p ty) := by
  unfold readM sessRead
  obtain ⟨s1, e1, h1, ht, hf⟩ := h.clear
  simp only [e1, Res.bind_ok, h1.look hc]
  rw [← hf]
  refine Rel.bind (rel_eq _) ?_
  rintro a _ rfl
  cases a with
  | none =>
    refine Rel.bind (h1.fail _ ⟨rfl, rfl⟩) ?_
    rintro s2 b ⟨h2, e⟩
    exact .ok ⟨h2, rfl, e, rfl⟩
  | some i =>
    dsimp only
    split
    · refine Rel.bind (h1.fail _ ⟨rfl, rfl⟩) ?_
      rintro s2 b ⟨h2, e⟩
      exact .ok ⟨h2, rfl, e, rfl⟩
    · split
      · refine Rel.bind (h1.fail _ ⟨rfl, rfl⟩) ?_
        rintro s2 b ⟨h2, e⟩
        exact .ok ⟨h2, rfl, e, rfl⟩
      · exact readDataM_ok hc h1 p i ty _ rfl

/-! ## Simple paths -/

theorem growN_ok {L : List Nat} : ∀ (n : Nat) (m : Mem) (b : Nat), Heap m (b :: L) [] →
    ∃ m' b', growN m b n = .ok (m', b') ∧ Heap m' (b' :: L) [] := by
  intro n
  induction n with
  | zero => intro m b h; exact ⟨m, b, rfl, h⟩
  | succ n ih =>
    intro m b h
    obtain ⟨m1, b1, e1, h1⟩ := Heap.realloc (o := some b) (L := L) h
    obtain ⟨m2, b2, e2, h2⟩ := ih m1 b1 h1
    exact ⟨m2, b2, by unfold growN; simp only [e1, e2, Res.bind_ok], h2⟩

/-- Specification: the text that is handed out is the only block that is left. -/
def PathOk (L : List Nat) (x : Mem × Option Nat × Option Bytes × Nat × Bool) (y : Option Bytes × Nat × Bool) : Prop :=
  x.2.2 = y ∧ Heap x.1 (x.2.1.toList ++ L) [] ∧ x.2.1.isSome = y.1.isSome

theorem endPath_ok {L : List Nat} {m : Mem} {b : Nat} (h : Heap m (b :: L) []) (out : Option Bytes × Nat × Bool) :
    Rel (PathOk L) (endPath m b out) (.ok out) := by
  obtain ⟨o, t, d⟩ := out
  cases o with
  | some r => exact .ok ⟨rfl, h, rfl⟩
  | none =>
    obtain ⟨m1, e1, h1⟩ := h.free'
    unfold endPath
    simp only [e1, Res.bind_ok]
    exact .ok ⟨rfl, h1, rfl⟩

theorem simpleLoopM_ok {L : List Nat} : ∀ (cs : List Bytes) (kids : List Entry) (real : Bytes) (timed : Bool) (m : Mem)
    (b : Nat), Heap m (b :: L) [] →
    Rel (PathOk L) (simpleLoopM kids cs real timed m b) (simpleLoop kids cs real timed) := by
  intro cs
  induction cs with
  | nil =>
    intro kids real timed m b h
    unfold simpleLoopM simpleLoop
    exact endPath_ok h _
  | cons c cs ih =>
    intro kids real timed m b h
    obtain ⟨m2, b2, e2, h2⟩ := growN_ok 2 m b h
    obtain ⟨m4, b4, e4, h4⟩ := growN_ok 4 m b h
    unfold simpleLoopM simpleLoop
    split
    · exact endPath_ok h _
    · refine Rel.bind (rel_eq _) ?_
      rintro a _ rfl
      cases a with
      | some i =>
        dsimp only
        cases kids[i]? with
        | none => exact .ub
        | some e =>
          cases e with
          | file n info =>
            dsimp only
            split
            · exact endPath_ok h _
            · simp only [e2, Res.bind_ok]; exact endPath_ok h2 _
          | folder n fr ch => simp only [e2, Res.bind_ok]; exact ih _ _ _ _ _ h2
      | none =>
        dsimp only
        refine Rel.bind (rel_eq _) ?_
        rintro a _ rfl
        cases a with
        | some e =>
          cases e with
          | file n info =>
            dsimp only
            split
            · exact endPath_ok h _
            · simp only [e4, Res.bind_ok]; exact endPath_ok h4 _
          | folder n fr ch => simp only [e4, Res.bind_ok]; exact ih _ _ _ _ _ h4
        | none =>
          dsimp only
          refine Rel.bind (rel_eq _) ?_
          rintro a _ rfl
          cases a with
          | some e =>
            cases e with
            | file n info =>
              dsimp only
              split
              · exact endPath_ok h _
              · simp only [e2, Res.bind_ok]; exact endPath_ok h2 _
            | folder n fr ch => simp only [e2, Res.bind_ok]; exact ih _ _ _ _ _ h2
          | none => exact endPath_ok h _

theorem simpleTopM_ok {L : List Nat} (kids : List Entry) (simple : Bytes) (m : Mem) (b : Nat) (h : Heap m (b :: L) []) :
    Rel (PathOk L) (simpleTopM kids simple m b) (simplePathToReal kids simple) := by
  obtain ⟨m1, b1, e1, h1⟩ := growN_ok 1 m b h
  unfold simpleTopM simplePathToReal
  refine Rel.bind (rel_eq _) ?_
  rintro a _ rfl
  cases a with
  | nil => exact endPath_ok h _
  | cons c cs =>
    dsimp only
    split
    · exact endPath_ok h _
    · refine Rel.bind (rel_eq _) ?_
      rintro a _ rfl
      cases a with
      | none => exact endPath_ok h _
      | some i =>
        dsimp only
        cases kids[i]? with
        | none => exact .ub
        | some e =>
          cases e with
          | file n info =>
            dsimp only
            split
            · exact endPath_ok h _
            · simp only [e1, Res.bind_ok]; exact endPath_ok h1 _
          | folder n fr ch => simp only [e1, Res.bind_ok]; exact simpleLoopM_ok _ _ _ _ _ _ h1

theorem simpleM_ok {c : BinM} (hc : Core c) {base : List Nat} {s : Sess} (h : Good c base [] s) (p : Bytes) :
    Rel (fun x y => Good c (x.2.1.toList ++ base) [] x.1 ∧ x.2.2 = y ∧ x.1.file = s.file ∧ x.2.1.isSome = y.1.isSome) (simpleM s p)
      (simplePathToReal s.file.kids p) := by
  unfold simpleM
  simp only [Res.bind_ok, h.look hc]
  have hr := simpleTopM_ok s.file.kids p _ _ h.heap.alloc
  change Rel _ (simpleTopM s.file.kids p s.mem.alloc.1 s.mem.alloc.2 >>= _) _
  generalize simpleTopM s.file.kids p s.mem.alloc.1 s.mem.alloc.2 = x at hr ⊢
  generalize simplePathToReal s.file.kids p = y at hr ⊢
  cases hr with
  | ub => exact .ub
  | err => exact .err
  | abort => exact .abort
  | ok hr =>
    rename_i a t
    obtain ⟨e1, h1, e2⟩ := hr
    refine .ok ⟨⟨h.bin, h.err, h.busy, h1.perm ?_⟩, e1, rfl, e2⟩
    dsimp only
    perms

/-! ## Variables of all time steps -/

theorem bsearch_ne_err (cmp : Nat → Option Int) : ∀ (s e : Nat), bsearch cmp s e ≠ .err := by
  intro s e
  fun_induction bsearch cmp s e <;> simp_all

theorem searchLookup_ne_err (v : Bytes) (kids : List Entry) : searchLookup v kids ≠ .err := bsearch_ne_err _ _ _

theorem openTimedPath_ne_err (name : Option Bytes) : ∀ (p : List Nat) (kids : List Entry),
    openTimedPath kids name p ≠ .err := by
  intro p
  induction p with
  | nil => intro kids h; cases h
  | cons i p ih =>
    intro kids
    unfold openTimedPath
    split
    · simp
    · split
      · simp
      · split
        · simp
        · split
          · simp
          · split
            · split
              · simp
              · split <;> simp
              · rename_i h; exact absurd h (searchLookup_ne_err _ _)
              · simp
              · simp
            · simp
      · split
        · simp
        · exact ih _

theorem openTimedEntry_ne_err (e : Entry) (name : Option Bytes) (p : List Nat) : openTimedEntry e name p ≠ .err := by
  unfold openTimedEntry
  split
  · exact openTimedPath_ne_err _ _ _
  · split
    · simp
    · split <;> simp

theorem lastDFrom_le {kids : List Entry} : ∀ {n e : Nat}, lastDFrom kids n = some e → e < kids.length := by
  intro n
  induction n with
  | zero =>
    intro e h
    unfold lastDFrom at h
    cases hk : kids[0]? with
    | none => rw [hk] at h; cases h
    | some x =>
      rw [hk] at h
      dsimp only at h
      split at h
      · cases h; exact (List.getElem?_eq_some_iff.1 hk).1
      · cases h
  | succ n ih =>
    intro e h
    unfold lastDFrom at h
    cases hk : kids[n + 1]? with
    | none => rw [hk] at h; cases h
    | some x =>
      rw [hk] at h
      dsimp only at h
      split at h
      · cases h; exact (List.getElem?_eq_some_iff.1 hk).1
      · exact ih h

/-- `_binout_read_timed` in its parts. -/
theorem readTimed_eq (b : BinFile) (path : Bytes) (ty : Nat) :
    readTimed b path ty = (do
      let f ← searchTimed b.kids path
      let t ← timedHead f.1 f.2
      if t.2.2.size / typeSize ty = 0 then .err
      else do
        let buf ← readSteps b.files t.2.1 f.2 t.1 0 (List.replicate (t.2.2.size * t.1.length) none)
        .ok (buf, t.2.2.size / typeSize ty, t.1.length)) := by
  unfold readTimed timedHead
  cases searchTimed b.kids path with
  | ub => rfl
  | err => rfl
  | abort => rfl
  | ok f =>
    obtain ⟨ds, p⟩ := f
    simp only [Res.bind_ok]
    cases hs : firstD ds with
    | none => rfl
    | some s =>
      dsimp only
      cases he : lastDFrom ds (ds.length - 1) with
      | none => rfl
      | some e =>
        dsimp only
        cases hd : ds[s]? with
        | none => rfl
        | some d0 =>
          dsimp only
          cases openTimedEntry d0 none p with
          | ub => rfl
          | err => rfl
          | abort => rfl
          | ok o =>
            cases o with
            | none => rfl
            | some x =>
              obtain ⟨name, info⟩ := x
              simp only [Res.bind_ok]
              have h1 := lastDFrom_le he
              have h2 := (List.getElem?_eq_some_iff.1 hd).1
              have hl : ((ds.drop s).take (e - s + 1)).length = e - s + 1 := by
                rw [List.length_take, List.length_drop]; omega
              rw [hl]

theorem allocN_ok {c : BinM} : ∀ (n : Nat) (base : List Nat) (s : Sess), Good c base [] s →
    Good c ((allocN s.mem n).2 ++ base) [] { s with mem := (allocN s.mem n).1 } := by
  intro n
  induction n with
  | zero => intro base s h; exact h
  | succ n ih =>
    intro base s h
    have := ih _ _ h.alloc
    unfold allocN
    exact this.perm (by dsimp only; perms)

theorem freePath_ok {c : BinM} {base : List Nat} : ∀ (tp : List Nat) (busy : List Nat) (s : Sess),
    Good c (tp ++ base) busy s → ∃ m, freePath s.mem tp = .ok m ∧ Good c base busy { s with mem := m } := by
  intro tp
  induction tp generalizing base with
  | nil => intro busy s h; exact ⟨s.mem, rfl, h⟩
  | cons b tp ih =>
    intro busy s h
    obtain ⟨m, e, h1⟩ := ih (base := b :: base) busy s (h.perm (by perms))
    obtain ⟨m2, e2, h2⟩ := h1.free
    refine ⟨m2, ?_, h2⟩
    unfold freePath
    rw [h.use (by simp)]
    dsimp only at e2
    simp only [e, e2, Res.bind_ok]

theorem giveUp_ok {c : BinM} {base busy : List Nat} {s : Sess} {data : Nat} {tp : List Nat}
    (h : Good c (data :: (tp ++ base)) busy s) :
    ∃ m, giveUp s data tp = .ok { s with mem := m } ∧ Good c base busy { s with mem := m } := by
  obtain ⟨m, e, h1⟩ := h.free
  obtain ⟨m2, e2, h2⟩ := freePath_ok tp busy _ h1
  refine ⟨m2, ?_, h2⟩
  unfold giveUp
  dsimp only at e2
  simp only [e, e2, Res.bind_ok]

/-- Specification: the loop over the time steps with and without memory. -/
inductive StepsOk (c : BinM) (base : List Nat) (data : Nat) (tp : List Nat) (why : Bytes) :
    Res (Sess × Option (List (Option Byte))) → Res (List (Option Byte)) → Prop
  | ok {s : Sess} {buf : List (Option Byte)} (h : Good c (data :: (tp ++ base)) [] s) (ht : s.text = none) :
      StepsOk c base data tp why (.ok (s, some buf)) (.ok buf)
  | err {x : Res (Sess × Option (List (Option Byte)))}
      (h : Rel (fun a b => a.2 = none ∧ Good c base [] a.1 ∧ a.1.file = b) x (newError (fileOf c none) why)) :
      StepsOk c base data tp why x .err
  | ub : StepsOk c base data tp why .ub .ub
  | abort : StepsOk c base data tp why .abort .abort

theorem readStepsM_ok {c : BinM} (hc : Core c) {base : List Nat} {data : Nat} {tp : List Nat} (path name : Bytes)
    (p : List Nat) : ∀ (ds : List Entry) (k : Nat) (s : Sess) (buf : List (Option Byte)),
    Good c (data :: (tp ++ base)) [] s → s.text = none →
    StepsOk c base data tp (stepsWhy (fileOf c none).files path name p ds k)
      (readStepsM path name p data tp ds k s buf) (readSteps (fileOf c none).files name p ds k buf) := by
  intro ds
  induction ds with
  | nil => intro k s buf h ht; exact .ok h ht
  | cons d ds ih =>
    intro k s buf h ht
    have hf : s.file = fileOf c none := by rw [h.file, ht]
    unfold readStepsM readSteps stepsWhy
    cases ho : openTimedEntry d (some name) p with
    | ub => exact .ub
    | abort => exact .abort
    | err => exact absurd ho (openTimedEntry_ne_err _ _ _)
    | ok o =>
      simp only [Res.bind_ok]
      cases o with
      | none =>
        obtain ⟨m, e1, h1⟩ := giveUp_ok h
        dsimp only
        rw [e1]
        simp only [Res.bind_ok]
        refine .err ?_
        have := h1.fail (b := fileOf c none) (differs path k) (by rw [← hf]; exact ⟨rfl, rfl⟩)
        generalize ({ s with mem := m } : Sess).fail (differs path k) = x at this ⊢
        generalize newError (fileOf c none) (differs path k) = y at this ⊢
        cases this with
        | ok hh => exact .ok ⟨rfl, hh⟩
        | ub => exact .ub
        | err => exact .err
        | abort => exact .abort
      | some r =>
        obtain ⟨n', info⟩ := r
        dsimp only
        unfold readInfo
        rcases h.access hc info.fileIndex (by simp) with ⟨e1, e2⟩ | ⟨x, e1, e2, h1⟩
        · rw [hf] at e2
          rw [e1, e2]; exact .ub
        · rw [hf] at e2
          rw [e1, e2]
          simp only [Res.bind_ok]
          by_cases hp : info.filePos ≥ u64 / 2
          · rw [if_pos hp, if_neg (by omega)]
            dsimp only
            rw [if_pos hp]
            obtain ⟨m, e3, h3⟩ := giveUp_ok h1
            obtain ⟨e4, h4⟩ := h3.giveBack
            dsimp only at e3 e4 h4 ⊢
            rw [e3]
            simp only [Res.bind_ok]
            rw [e4]
            simp only [Res.bind_ok]
            refine .err ?_
            have := h4.fail (b := fileOf c none) (noSeek path) (by rw [← hf]; exact ⟨rfl, rfl⟩)
            generalize Sess.fail _ (noSeek path) = x at this ⊢
            generalize newError (fileOf c none) (noSeek path) = y at this ⊢
            cases this with
            | ok hh => exact .ok ⟨rfl, hh⟩
            | ub => exact .ub
            | err => exact .err
            | abort => exact .abort
          · rw [if_neg hp, if_pos (by omega)]
            cases hr : freadObj x info.filePos info.size with
            | none =>
              dsimp only
              rw [if_neg hp]
              obtain ⟨m, e3, h3⟩ := giveUp_ok h1
              obtain ⟨e4, h4⟩ := h3.giveBack
              dsimp only at e3 e4 h4 ⊢
              rw [e3]
              simp only [Res.bind_ok]
              rw [e4]
              simp only [Res.bind_ok]
              refine .err ?_
              have := h4.fail (b := fileOf c none) (noRead path k) (by rw [← hf]; exact ⟨rfl, rfl⟩)
              generalize Sess.fail _ (noRead path k) = x at this ⊢
              generalize newError (fileOf c none) (noRead path k) = y at this ⊢
              cases this with
              | ok hh => exact .ok ⟨rfl, hh⟩
              | ub => exact .ub
              | err => exact .err
              | abort => exact .abort
            | some bytes =>
              dsimp only
              rw [if_neg hp]
              have hu : s.mem.use data = .ok () := h.use (by simp)
              rw [hu]
              simp only [Res.bind_ok]
              cases hw : writeAt buf (k * info.size) bytes with
              | ub => exact .ub
              | abort => exact .abort
              | err =>
                exact absurd hw (by unfold writeAt; split <;> simp)
              | ok buf' =>
                simp only [Res.bind_ok]
                obtain ⟨e4, h4⟩ := h1.giveBack
                dsimp only at e4 h4
                rw [e4]
                simp only [Res.bind_ok]
                exact ih _ _ _ h4 ht

theorem timedHead_ne_err (ds : List Entry) (p : List Nat) : timedHead ds p ≠ .err := by
  unfold timedHead
  split
  · simp
  · split
    · simp
    · split
      · simp
      · rename_i d0 _
        cases h : openTimedEntry d0 none p with
        | err => exact absurd h (openTimedEntry_ne_err _ _ _)
        | ub => simp
        | abort => simp
        | ok o =>
          cases o with
          | none => simp
          | some x => obtain ⟨n, i⟩ := x; simp

theorem readTimedM_ok {c : BinM} (hc : Core c) {base : List Nat} {s : Sess} (h : Good c base [] s) (path : Bytes)
    (ty : Nat) : Rel (Agrees Option.isSome c base) (readTimedM s path ty) (sessTimed s.file path ty) := by
  obtain ⟨s1, e1, h1, ht, hf⟩ := h.clear
  have hf1 : s1.file = fileOf c none := by rw [h1.file, ht]
  have hk : eraseL s1.bin.kids = s.file.kids := by rw [h1.kids]; unfold Sess.file; rw [h.kids]
  have hfl : s.file.files = (fileOf c none).files := by rw [← hf1, hf]; rfl
  unfold readTimedM sessTimed
  rw [readTimed_eq]
  unfold timedWhy
  simp only [e1, Res.bind_ok, h1.look hc, hk]
  have h2 := allocN_ok (timedDepth s.file.kids path) base s1 h1
  generalize allocN s1.mem (timedDepth s.file.kids path) = t at h2 ⊢
  obtain ⟨m, tp⟩ := t
  dsimp only at h2 ⊢
  have hcl : clearError s.file = fileOf c none := by rw [← hf, hf1]
  cases searchTimed s.file.kids path with
  | ub => exact .ub
  | abort => exact .abort
  | err =>
    dsimp only
    rw [hcl]
    refine Rel.bind (h2.fail _ (by rw [← hf1]; exact ⟨rfl, rfl⟩)) ?_
    rintro s3 b ⟨h3, rfl⟩
    obtain ⟨m4, e4, h4⟩ := freePath_ok tp [] s3 h3
    rw [e4]
    simp only [Res.bind_ok]
    exact .ok ⟨h4, rfl, rfl, rfl⟩
  | ok f =>
    obtain ⟨ds, p⟩ := f
    dsimp only
    simp only [Res.bind_ok]
    unfold readFoundM
    cases hh : timedHead ds p with
    | ub => exact .ub
    | abort => exact .abort
    | err => exact absurd hh (timedHead_ne_err _ _)
    | ok q =>
      obtain ⟨steps, name, info⟩ := q
      simp only [Res.bind_ok]
      by_cases hv : info.size / typeSize ty = 0
      · rw [if_pos hv, if_pos hv, if_pos hv]
        obtain ⟨m4, e4, h4⟩ := freePath_ok tp [] _ h2
        dsimp only at e4 h4 ⊢
        rw [e4, hcl]
        simp only [Res.bind_ok]
        refine Rel.bind (h4.fail _ (by rw [← hf1]; exact ⟨rfl, rfl⟩)) ?_
        rintro s3 b ⟨h3, rfl⟩
        exact .ok ⟨h3, rfl, rfl, rfl⟩
      · rw [if_neg hv, if_neg hv, if_neg hv]
        have h3 := readStepsM_ok hc path name p steps 0 _ (List.replicate (info.size * steps.length) none) h2.alloc ht
        rw [hfl]
        dsimp only at h3 ⊢
        generalize readStepsM path name p m.alloc.2 tp steps 0 _ _ = x at h3 ⊢
        generalize readSteps (fileOf c none).files name p steps 0 _ = y at h3 ⊢
        cases h3 with
        | ub => exact .ub
        | abort => exact .abort
        | err hr =>
          rw [hcl]
          refine Rel.bind hr ?_
          rintro ⟨s3, o⟩ b ⟨e, h3, e3⟩
          dsimp only at e
          subst e
          exact .ok ⟨h3, rfl, e3, rfl⟩
        | ok h3 ht3 =>
          rename_i s3 buf
          simp only [Res.bind_ok]
          obtain ⟨m4, e4, h4⟩ := freePath_ok (base := m.alloc.2 :: base) tp [] s3 (h3.perm (by perms))
          rw [e4, hcl]
          simp only [Res.bind_ok]
          refine .ok ⟨h4, rfl, ?_, rfl⟩
          rw [h4.file]
          rw [ht3]

/-! ## Programs -/

theorem callM_ok {c : BinM} (hc : Core c) {base : List Nat} {s : Sess} (h : Good c base [] s) (a : Call) :
    Rel (Agrees gives c base) (callM s a) (answer s.file a) := by
  cases a with
  | typeId p =>
    refine Rel.bind (typeIdM_ok hc h p) ?_
    rintro x y ⟨h1, e1, e2⟩
    exact .ok ⟨h1, by rw [e1], e2, rfl⟩
  | isThere p =>
    refine Rel.bind (existsM_ok hc h p) ?_
    rintro x y ⟨h1, e1, e2⟩
    exact .ok ⟨h1, by rw [e1], e2, rfl⟩
  | children p =>
    refine Rel.bind (childrenM_ok hc h p) ?_
    rintro x y ⟨h1, e1, e2, e3⟩
    exact .ok ⟨h1, by rw [e1], e2, e3⟩
  | read p ty =>
    refine Rel.bind (readM_ok hc h p ty) ?_
    rintro x y ⟨h1, e1, e2, e3⟩
    exact .ok ⟨h1, by rw [e1], e2, e3⟩
  | readTimed p ty =>
    refine Rel.bind (readTimedM_ok hc h p ty) ?_
    rintro x y ⟨h1, e1, e2, e3⟩
    exact .ok ⟨h1, by rw [e1], e2, e3⟩
  | numSteps p =>
    refine Rel.bind (numStepsM_ok hc h p) ?_
    rintro x y ⟨h1, e1, e2⟩
    exact .ok ⟨h1, by rw [e1], e2, rfl⟩
  | simplePath p =>
    refine Rel.bind (simpleM_ok hc h p) ?_
    rintro x y ⟨h1, e1, e2, e3⟩
    exact .ok ⟨h1, by rw [e1], e2, e3⟩
  | message =>
    obtain ⟨x, e, h1, e1, e2, e3⟩ := messageM_ok h
    unfold callM answer
    rw [e]
    simp only [Res.bind_ok]
    exact .ok ⟨h1, by rw [e1], e2, e3⟩

/-- Specification: the program without memory. -/
def askAll (b : BinFile) : List Cmd → Res (List Got × BinFile)
  | [] => .ok ([], b)
  | .call c :: cs => do
    let r ← answer b c
    let t ← askAll r.2 cs
    .ok (r.1 :: t.1, t.2)
  | .release _ :: cs => askAll b cs

/-- Specification: after `n` calls and the release of the results `gone`: results are released only after their call
and only once. -/
def Proper (n : Nat) (gone : List Nat) : List Cmd → Prop
  | [] => True
  | .call _ :: cs => Proper (n + 1) gone cs
  | .release k :: cs => k < n ∧ k ∉ gone ∧ Proper n (k :: gone) cs

/-- Specification: the results that a program releases. -/
def releases : List Cmd → List Nat
  | [] => []
  | .call _ :: cs => releases cs
  | .release k :: cs => k :: releases cs

/-- Specification: the blocks of the results that have not been released; the first one has the number `i`. -/
def kept (gone : List Nat) : Nat → List (Option Nat) → List Nat
  | _, [] => []
  | i, o :: l => (if i ∈ gone then [] else o.toList) ++ kept gone (i + 1) l

theorem kept_append (gone : List Nat) (o : Option Nat) : ∀ (l : List (Option Nat)) (i : Nat), i + l.length ∉ gone →
    (kept gone i (l ++ [o])).Perm (o.toList ++ kept gone i l) := by
  intro l
  induction l with
  | nil => intro i h; simp only [List.length_nil, Nat.add_zero] at h; simp [kept, h]
  | cons x l ih =>
    intro i h
    have := ih (i + 1) (by simp only [List.length_cons] at h; rw [Nat.add_assoc, Nat.add_comm 1]; exact h)
    simp only [List.cons_append, kept]
    refine (List.Perm.append_left _ this).trans ?_
    perms

theorem kept_later (gone : List Nat) (k : Nat) : ∀ (l : List (Option Nat)) (i : Nat), k < i →
    kept (k :: gone) i l = kept gone i l := by
  intro l
  induction l with
  | nil => intro i _; rfl
  | cons x l ih =>
    intro i h
    have : i ≠ k := by omega
    simp only [kept, ih (i + 1) (by omega), List.mem_cons, this, false_or]

theorem kept_release (gone : List Nat) (k : Nat) (hk : k ∉ gone) (o : Option Nat) : ∀ (l : List (Option Nat)) (i : Nat),
    i ≤ k → l[k - i]? = some o → (kept gone i l).Perm (o.toList ++ kept (k :: gone) i l) := by
  intro l
  induction l with
  | nil => intro i _ h; simp at h
  | cons x l ih =>
    intro i hi h
    by_cases e : i = k
    · subst e
      simp only [Nat.sub_self, List.getElem?_cons_zero, Option.some.injEq] at h
      subst h
      simp only [kept, if_neg hk, List.mem_cons, true_or, if_true, List.nil_append, kept_later gone i l (i + 1) (by omega)]
      exact List.Perm.refl _
    · have h2 : l[k - (i + 1)]? = some o := by
        have : k - i = (k - (i + 1)) + 1 := by omega
        rw [this] at h
        simpa using h
      have := ih (i + 1) (by omega) h2
      simp only [kept, List.mem_cons, e, false_or]
      refine (List.Perm.append_left _ this).trans ?_
      perms

/-- Specification: the end of a program: answers and error string are those of the program without memory, no handle is
in use, and of the results exactly those are allocated that have not been released. -/
structure Ended (c : BinM) (base : List Nat) (gone : List Nat) (before : List (Option Nat))
    (x : Sess × List (Option Nat) × List Got) (y : List Got × BinFile) : Prop where
  got : x.2.2 = y.1
  file : x.1.file = y.2
  good : Good c (kept gone 0 x.2.1 ++ base) [] x.1
  outs : ∃ new, x.2.1 = before ++ new ∧ new.map Option.isSome = y.1.map gives

theorem runM_ok {c : BinM} (hc : Core c) {base : List Nat} : ∀ (cmds : List Cmd) (s : Sess) (outs : List (Option Nat))
    (gone : List Nat), Good c (kept gone 0 outs ++ base) [] s → Proper outs.length gone cmds →
    (∀ k ∈ gone, k < outs.length) →
    Rel (Ended c base ((releases cmds).reverse ++ gone) outs) (runM s outs cmds) (askAll s.file cmds) := by
  intro cmds
  induction cmds with
  | nil => intro s outs gone h _ _; exact .ok ⟨rfl, rfl, h, [], by simp, rfl⟩
  | cons cmd cmds ih =>
    intro s outs gone h hp hg
    cases cmd with
    | call a =>
      unfold runM askAll releases
      refine Rel.bind (callM_ok hc h a) ?_
      rintro ⟨s1, o, g⟩ ⟨g', b⟩ ⟨h1, e1, e2, e3⟩
      dsimp only at h1 e1 e2 e3
      subst e1 e2
      dsimp only
      have h2 : Good c (kept gone 0 (outs ++ [o]) ++ base) [] s1 := by
        refine h1.perm ?_
        have := kept_append gone o outs 0 (by
          intro hm
          have := hg _ hm
          omega)
        refine List.Perm.trans ?_ (List.Perm.append_right _ this.symm)
        perms
      refine Rel.bind (ih s1 (outs ++ [o]) gone h2 (by
        simp only [List.length_append, List.length_cons, List.length_nil]; exact hp) (by
        intro k hk
        have := hg k hk
        simp only [List.length_append, List.length_cons, List.length_nil]
        omega)) ?_
      rintro x y ⟨i1, i2, i3, new, i4, i5⟩
      refine .ok ⟨by dsimp only; rw [i1], i2, i3, o :: new, ?_, ?_⟩
      · dsimp only; rw [i4]; simp
      · simp only [List.map_cons, e3, i5]
    | release k =>
      obtain ⟨p1, p2, p3⟩ := hp
      unfold runM askAll releases
      have hk : outs[k]? = some (outs[k]) := List.getElem?_eq_getElem p1
      rw [hk]
      dsimp only
      generalize outs[k] = o at hk
      have hpm := kept_release gone k p2 o outs 0 (Nat.zero_le _) (by simpa using hk)
      have h2 : Good c (o.toList ++ (kept (k :: gone) 0 outs ++ base)) [] s :=
        h.perm ((List.Perm.append_right _ hpm).trans (by perms))
      have h3 : ∃ m, s.mem.freeOpt o = .ok m ∧ Good c (kept (k :: gone) 0 outs ++ base) [] { s with mem := m } := by
        cases o with
        | none => exact ⟨s.mem, rfl, h2⟩
        | some b => exact h2.free
      obtain ⟨m, e, h4⟩ := h3
      simp only [e, Res.bind_ok]
      have := ih { s with mem := m } outs (k :: gone) h4 p3 (by
        intro j hj
        rcases List.mem_cons.1 hj with e | hj
        · subst e; exact p1
        · exact hg j hj)
      have e5 : (k :: releases cmds).reverse ++ gone = (releases cmds).reverse ++ (k :: gone) := by simp
      rw [e5]
      exact this

/-! ## The files of an open binout -/

theorem cleanUpLoop_some : ∀ (n : Nat) (files : List (Option Bytes)) (i : Nat), files.length ≤ n + i →
    (∀ j, j < i → files[j]? ≠ some none) → ∀ f ∈ cleanUpLoop n files i, f ≠ none := by
  intro n
  induction n with
  | zero =>
    intro files i hl hj f hf
    unfold cleanUpLoop at hf
    obtain ⟨j, hlt, e⟩ := List.getElem_of_mem hf
    intro e2
    subst e2
    exact hj j (by omega) (by rw [List.getElem?_eq_getElem hlt, e])
  | succ n ih =>
    intro files i hl hj f hf
    unfold cleanUpLoop at hf
    cases hi : files[i]? with
    | none =>
      rw [hi] at hf
      dsimp only at hf
      obtain ⟨j, hlt, e⟩ := List.getElem_of_mem hf
      intro e2
      subst e2
      have : files.length ≤ i := List.getElem?_eq_none_iff.1 hi
      exact hj j (by omega) (by rw [List.getElem?_eq_getElem hlt, e])
    | some o =>
      rw [hi] at hf
      have hlt : i < files.length := (List.getElem?_eq_some_iff.1 hi).1
      cases o with
      | some x =>
        dsimp only at hf
        refine ih files (i + 1) (by omega) ?_ f hf
        intro j hjl
        by_cases e : j = i
        · subst e; rw [hi]; simp
        · exact hj j (by omega)
      | none =>
        dsimp only at hf
        cases hg : files.getLast? with
        | none =>
          have : files = [] := List.getLast?_eq_none_iff.1 hg
          subst this
          simp at hlt
        | some l =>
          rw [hg] at hf
          dsimp only at hf
          refine ih _ i (by simp; omega) ?_ f hf
          intro j hjl e
          refine hj j hjl ?_
          rw [List.dropLast_eq_take, List.getElem?_take] at e
          split at e
          · rw [List.getElem?_set] at e
            rw [if_neg (by omega)] at e
            exact e
          · cases e

theorem cleanUp_some (files : List (Option Bytes)) : ∀ f ∈ cleanUp files, f ≠ none :=
  cleanUpLoop_some _ _ _ (by omega) (by intro j h; omega)

theorem open_files_some {fuel : Nat} {pattern : Bytes} {files : List (Bytes × Option Bytes)} {b : BinFile}
    (h : binoutOpen fuel pattern files = .ok (some b)) : ∀ f ∈ b.files, f ≠ none := by
  unfold binoutOpen at h
  split at h
  · simp only [Res.ok.injEq, Option.some.injEq] at h
    subst h
    intro f hf
    simp at hf
  · cases ho : openFiles fuel 0 files {} with
    | ub => rw [ho] at h; cases h
    | err => rw [ho] at h; cases h
    | abort => rw [ho] at h; cases h
    | ok o =>
      rw [ho] at h
      simp only [Res.bind_ok] at h
      cases o with
      | none => simp at h
      | some st =>
        simp only [Res.ok.injEq, Option.some.injEq] at h
        subst h
        exact cleanUp_some _

/-- The state behind `binout_open`. -/
theorem opened {zero : Bool} {fuel : Nat} {pattern : Bytes} {files : List (Bytes × Option Bytes)} {m : Mem}
    (hm : BinoutMem.Valid m) {b : BinFile} (hb : binoutOpen fuel pattern files = .ok (some b))
    (hr : releasedL b.kids = 0) : ∃ m1 r, openM zero fuel files m = .ok (some (m1, r)) ∧ Core r ∧
      Good r m.live [] ⟨m1, r, b.error, []⟩ ∧ Sess.file ⟨m1, r, b.error, []⟩ = b ∧
      (r.fb = none ↔ b.files = [] ∧ (zero = false ∨ files = [])) := by
  have h := openM_ok zero fuel pattern files hm.heap
  rw [hb] at h
  generalize hx : openM zero fuel files m = x at h
  cases h with
  | ok h =>
    cases h with
    | some h =>
      rename_i r
      obtain ⟨m1, r⟩ := r
      obtain ⟨leak, h1, hl⟩ := h.heap
      have hk := h.kids
      have hfl := h.files
      have he := h.err
      have harr := h.arr
      dsimp only at h1 hl hk hfl he harr
      have hd : dangL r.kids = [] := by
        apply List.length_eq_zero_iff.1
        rw [dangL_len, hk]
        exact hr
      rw [hd] at hl h1
      have hl0 : leak = [] := List.length_eq_zero_iff.1 hl
      subst hl0
      refine ⟨m1, r, rfl, ⟨h.ok, hd, ?_, ?_⟩, ⟨rfl, he, rfl, h1⟩, ?_, ?_⟩
      · intro f hf
        rcases h.settled f hf with g | g
        · exact ⟨g.1, g.2.1, g.2.2⟩
        · have h0 : f.content ∈ b.files := by rw [← hfl]; exact List.mem_map_of_mem hf
          exact absurd (by rw [g]) (open_files_some hb _ h0)
      · intro e
        have := (harr.1 e).1
        rw [← hfl] at this
        simpa using this
      · unfold Sess.file
        dsimp only
        rw [hk, hfl]
      · rw [harr, List.isEmpty_iff]

/-- C92: programs of calls on an open binout in which no variable has got the name of a folder; every result is released at
most once. The answers are those of the functions without memory, and what is undefined there is what is undefined
here: the memory adds nothing. Afterwards no handle of a file is in use, directory and files are the same as before,
and besides them exactly the results that have not been released, what was allocated before the binout was opened, and
at most one lost block (the array `files`, see C88) are allocated; nothing is lost by the calls, and calls that fail
hand out nothing. -/
theorem c92_memory (zero : Bool) (fuel : Nat) (pattern : Bytes) (files : List (Bytes × Option Bytes)) (m : Mem)
    (hm : BinoutMem.Valid m) (b : BinFile) (hb : binoutOpen fuel pattern files = .ok (some b))
    (hr : releasedL b.kids = 0) (prog : List Cmd) (hp : Proper 0 [] prog) :
    ∃ m1 r lost, openM zero fuel files m = .ok (some (m1, r)) ∧ lost.length ≤ 1 ∧
      Rel (fun x y => x.2.2 = y.1 ∧ x.1.file = y.2 ∧ x.1.busy = [] ∧
          x.1.bin = { r with err := x.1.bin.err } ∧ x.1.bin.err.isSome = y.2.error.isSome ∧
          x.2.1.map Option.isSome = y.1.map gives ∧
          x.1.mem.live.Perm (x.1.bin.blks ++ (kept (releases prog) 0 x.2.1 ++ (lost ++ m.live))) ∧ BinoutMem.Valid x.1.mem)
        (runM ⟨m1, r, b.error, []⟩ [] prog) (askAll b prog) := by
  obtain ⟨m1, r, e1, hc, h, hf, _⟩ := opened (zero := zero) hm hb hr
  refine ⟨m1, r, r.fb.toList, e1, by cases r.fb <;> simp, ?_⟩
  have := runM_ok (base := m.live) hc prog _ [] [] h hp (by simp)
  rw [hf] at this
  generalize runM ⟨m1, r, b.error, []⟩ [] prog = x at this ⊢
  generalize askAll b prog = y at this ⊢
  cases this with
  | ub => exact .ub
  | err => exact .err
  | abort => exact .abort
  | ok hh =>
    rename_i x y
    obtain ⟨i1, i2, i3, new, i4, i5⟩ := hh
    have ht : x.1.text = y.2.error := by rw [← i2]; rfl
    have hk : ∀ (l : List (Option Nat)) (i : Nat) (g g' : List Nat), (∀ k, k ∈ g ↔ k ∈ g') → kept g i l = kept g' i l := by
      intro l
      induction l with
      | nil => intro i g g' _; rfl
      | cons a l ih =>
        intro i g g' hg
        simp only [kept, ih (i + 1) g g' hg, hg i]
    have e2 : kept ((releases prog).reverse ++ []) 0 x.2.1 = kept (releases prog) 0 x.2.1 := hk _ _ _ _ (by simp)
    rw [e2] at i3
    refine .ok ⟨i1, i2, i3.busy, i3.bin, by rw [i3.err, ht], ?_, i3.heap.own.trans ?_, i3.heap.valid⟩
    · rw [i4]; simpa using i5
    · perms

/-- C92: `binout_close` after such a program releases everything but the results that the program has not released. -/
theorem c92_close (zero : Bool) (fuel : Nat) (pattern : Bytes) (files : List (Bytes × Option Bytes)) (m : Mem)
    (hm : BinoutMem.Valid m) (b : BinFile) (hb : binoutOpen fuel pattern files = .ok (some b))
    (hr : releasedL b.kids = 0) (prog : List Cmd) (hp : Proper 0 [] prog) (got : List Got) (b' : BinFile)
    (ha : askAll b prog = .ok (got, b')) :
    ∃ m1 r lost s outs m2, openM zero fuel files m = .ok (some (m1, r)) ∧
      runM ⟨m1, r, b.error, []⟩ [] prog = .ok (s, outs, got) ∧ closeM s.mem s.bin = .ok (m2, {}) ∧
      m2.live.Perm (kept (releases prog) 0 outs ++ (lost ++ m.live)) ∧ BinoutMem.Valid m2 ∧
      lost.length = if b.files = [] ∧ (zero = false ∨ files = []) then 0 else 1 := by
  obtain ⟨m1, r, e1, hc, h, hf, hfb⟩ := opened (zero := zero) hm hb hr
  have := runM_ok (base := m.live) hc prog _ [] [] h hp (by simp)
  rw [hf, ha] at this
  generalize hx : runM ⟨m1, r, b.error, []⟩ [] prog = x at this
  cases this with
  | ok hh =>
    rename_i x
    obtain ⟨i1, i2, i3, new, i4, i5⟩ := hh
    obtain ⟨s, outs, g⟩ := x
    dsimp only at i1 i2 i3 i4
    subst i1
    have hk : ∀ (l : List (Option Nat)) (i : Nat) (g g' : List Nat), (∀ k, k ∈ g ↔ k ∈ g') → kept g i l = kept g' i l := by
      intro l
      induction l with
      | nil => intro i g g' _; rfl
      | cons a l ih =>
        intro i g g' hg
        simp only [kept, ih (i + 1) g g' hg, hg i]
    have e2 : kept ((releases prog).reverse ++ []) 0 outs = kept (releases prog) 0 outs := hk _ _ _ _ (by simp)
    rw [e2] at i3
    have h2 : Heap s.mem (fblksL r.files ++ (tree r.blk r.kids ++ (s.bin.err.toList ++ (r.fb.toList ++
        (kept (releases prog) 0 outs ++ m.live))))) [] :=
      i3.heap.perm (by rw [i3.blks]; perms)
    obtain ⟨m2, e2, h3⟩ := closeFilesM_ok (fb := r.fb) (by intro b hb; simp [hb]) r.files s.mem hc.arr h2
    obtain ⟨m3, e3, h4⟩ := freeDirM_ok hc.ok h3 hc.dang
    obtain ⟨m4, e4, h5⟩ := h4.freeOpt
    refine ⟨m1, r, r.fb.toList, s, outs, m4, e1, hx, ?_, h5.own.trans (by perms), h5.valid, ?_⟩
    · unfold closeM
      rw [i3.fb, i3.files, i3.kids, i3.blk]
      simp only [e2, e3, e4, Res.bind_ok]
    · split
      · rename_i hcc
        rw [hfb.2 hcc]
        rfl
      · rename_i hcc
        cases hh : r.fb with
        | none => exact absurd (hfb.1 hh) hcc
        | some _ => rfl

/-- C92: `binout_read_timed` gives data or an error string, never both or neither. -/
theorem c92_timed_error_or_data (b b' : BinFile) (path : Bytes) (ty : Nat) (d : Option (List (Option Byte) × Nat × Nat))
    (h : sessTimed b path ty = .ok (d, b')) :
    (d = none ↔ readTimed b path ty = .err) ∧ (b'.error = none ↔ d ≠ none) ∧ b'.kids = b.kids ∧ b'.files = b.files ∧
      ∀ v, d = some v → readTimed b path ty = .ok v := by
  unfold sessTimed at h
  cases hr : readTimed b path ty with
  | ub => rw [hr] at h; cases h
  | abort => rw [hr] at h; cases h
  | ok v =>
    rw [hr] at h
    simp only [Res.ok.injEq, Prod.mk.injEq] at h
    obtain ⟨rfl, rfl⟩ := h
    simp [clearError]
  | err =>
    rw [hr] at h
    dsimp only at h
    unfold newError at h
    split at h
    · cases h
    · simp only [Res.bind_ok, Res.ok.injEq, Prod.mk.injEq] at h
      obtain ⟨rfl, rfl⟩ := h
      simp [clearError]

/-- `binout_read_timed_<type>` does not compare the type of the variable with the type it reads, unlike
`binout_read_<type>`: the result depends on the type only by the size of its values. -/
theorem c92_timed_type_unchecked (b : BinFile) (path : Bytes) (ty ty' : Nat) (h : typeSize ty = typeSize ty') :
    sessTimed b path ty = sessTimed b path ty' := by
  unfold sessTimed timedWhy
  rw [readTimed_eq, readTimed_eq, h]

/-! ## A concrete case -/

/-- A program on the sample of C12. -/
def sampleProg : List Cmd := [.call (.readTimed (bs "/nodout/x") 3), .call (.children (bs "/nodout")), .release 0,
  .call (.read (bs "/nodout/d000002/x") 3), .call .message, .call (.simplePath (bs "/nodout/ids")), .release 3,
  .call (.readTimed (bs "/nodout/y") 9), .call (.read (bs "/nodout/d000002/x") 9)]

/-- Its answers: the variable `x` of type `FLOAT32` can be read as `INT32` over time, but not in one time step. -/
def sampleGot : List Got := [.timed (some ([some 1, some 2, some 3, some 4, some 5, some 6, some 7, some 8], 1, 2)),
  .names (some [bs "d000001", bs "d000002", bs "metadata"]), .data none,
  .message (some (bs "\"/nodout/d000002/x\" is of type FLOAT32 instead of INT32")),
  .real (some (bs "/nodout/metadata/ids"), 4, false), .timed none, .data (some ([5, 6, 7, 8], 1))]

/-- The binout of the sample. -/
def sampleBin : Option BinFile :=
  match binoutOpen 20 [] [(sampleFile.name, some sampleFile.content)] with
  | .ok o => o
  | _ => none

theorem sampleBin_open : binoutOpen 20 [] [(sampleFile.name, some sampleFile.content)] = .ok sampleBin := by
  have h : (match binoutOpen 20 [] [(sampleFile.name, some sampleFile.content)] with
    | .ok _ => true
    | _ => false) = true := by decide +kernel
  unfold sampleBin
  generalize binoutOpen 20 [] [(sampleFile.name, some sampleFile.content)] = y at h ⊢
  cases y with
  | ok o => rfl
  | ub => cases h
  | err => cases h
  | abort => cases h

/-- The error string of the sample and the answers. -/
def sampleAnswers : Option (List Got × Nat × Nat) :=
  match sampleBin with
  | some b =>
    match askAll b sampleProg with
    | .ok (g, _) => some (g, releasedL b.kids, b.files.length)
    | _ => none
  | none => none

theorem sampleAnswers_eq : sampleAnswers = some (sampleGot, 0, 1) := by decide +kernel

/-- C92 on the sample, for every heap: the program hands out five blocks, releases two of them, and after closing three
and the lost array are left. -/
theorem c92_sample (zero : Bool) (m : Mem) (hm : BinoutMem.Valid m) :
    ∃ m1 r t s outs m2 left, openM zero 20 [(sampleFile.name, some sampleFile.content)] m = .ok (some (m1, r)) ∧
      runM ⟨m1, r, t, []⟩ [] sampleProg = .ok (s, outs, sampleGot) ∧
      closeM s.mem s.bin = .ok (m2, {}) ∧ m2.live.Perm (left ++ m.live) ∧ left.length = 4 := by
  have h := sampleAnswers_eq
  unfold sampleAnswers at h
  cases hb : sampleBin with
  | none => rw [hb] at h; cases h
  | some b =>
    rw [hb] at h
    dsimp only at h
    cases ha : askAll b sampleProg with
    | ub => rw [ha] at h; cases h
    | err => rw [ha] at h; cases h
    | abort => rw [ha] at h; cases h
    | ok y =>
      obtain ⟨g, b'⟩ := y
      rw [ha] at h
      simp only [Option.some.injEq, Prod.mk.injEq] at h
      obtain ⟨rfl, h1, h2⟩ := h
      have ho := sampleBin_open
      rw [hb] at ho
      have hp : Proper 0 [] sampleProg := by unfold sampleProg; simp [Proper]
      obtain ⟨m1, r, lost, s, outs, m2, e1, e2, e3, p, _, hl⟩ := c92_close zero 20 [] _ m hm b ho h1 sampleProg hp _ _ ha
      obtain ⟨m1', r', lost', e1', _, hrel⟩ := c92_memory zero 20 [] _ m hm b ho h1 sampleProg hp
      rw [e1] at e1'
      simp only [Res.ok.injEq, Option.some.injEq, Prod.mk.injEq] at e1'
      obtain ⟨rfl, rfl⟩ := e1'
      rw [e2, ha] at hrel
      cases hrel with
      | ok hrel =>
        have hm := hrel.2.2.2.2.2.1
        dsimp only at hm
        refine ⟨m1, r, b.error, s, outs, m2, kept (releases sampleProg) 0 outs ++ lost, e1, e2, e3,
          p.trans (by perms), ?_⟩
        rw [List.length_append, hl, if_neg (by intro hh; rw [hh.1] at h2; cases h2)]
        have hm' : outs.map Option.isSome = [true, true, false, true, true, false, true] := hm
        match outs, hm' with
        | [some a, some b, none, some c, some d, none, some e], _ => rfl

end Dyna.BinoutCalls
