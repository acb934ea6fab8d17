import Verif.BinoutLemmas
import Verif.BinoutCd
import Verif.Props.Directory
/-!
# Binout files: specification of a set of files, refinement of the parser

The specification describes what a set of binout files contains, without positions,
indices or trees: a list of (folder path, name, type, payload) in file order.
-/

namespace Dyna

/-! ## Specification -/

/-- The variables of a record list: full path, type, payload.
Part of the specification, models no code. -/
def varsOf (cur : List Bytes) : List WRec → List (List Bytes × Nat × Bytes)
  | [] => []
  | .cd p :: rs => varsOf (cdTarget cur p) rs
  | .data ty name pl :: rs => (cur ++ [name], ty, pl) :: varsOf cur rs
  | .other _ _ :: rs => varsOf cur rs

/-- The folders a record list changes to. Part of the specification, models no code. -/
def foldersOf (cur : List Bytes) : List WRec → List (List Bytes)
  | [] => []
  | .cd p :: rs => cdTarget cur p :: foldersOf (cdTarget cur p) rs
  | .data _ _ _ :: rs => foldersOf cur rs
  | .other _ _ :: rs => foldersOf cur rs

/-- All CD paths are of the form LS-DYNA writes, and the path text stays below 1 KiB.
Part of the specification, models no code. -/
def cdsOk : List Bytes → Nat → List WRec → Prop
  | _, _, [] => True
  | cur, n, .cd p :: rs =>
    cdOk cur p ∧ cdRoom n p < 1024 ∧ cdsOk (cdTarget cur p) (cdRoom n p) rs
  | cur, n, .data _ _ _ :: rs => cdsOk cur n rs
  | cur, n, .other _ _ :: rs => cdsOk cur n rs

/-- A CD precedes the first DATA. Part of the specification, models no code. -/
def startsCd : List WRec → Prop
  | [] => True
  | .cd _ :: _ => True
  | .data _ _ _ :: _ => False
  | .other _ _ :: rs => startsCd rs

/-- All names are 7-bit. Part of the specification, models no code. -/
def WRec.isAscii : WRec → Prop
  | .cd p => Ascii p
  | .data _ name _ => Ascii name
  | .other _ _ => True

/-- A file of a set: its name, the field widths and the records it was written with.
Part of the specification, models no code. -/
structure SrcFile where
  name : Bytes
  w : Header
  rs : List WRec

/-- Part of the specification, models no code. -/
def SrcFile.content (s : SrcFile) : Bytes := encFile s.w s.rs

/-- The file is well formed. Part of the specification, models no code. -/
structure SrcFile.Ok (s : SrcFile) : Prop where
  widths : s.w.Ok
  recs : ∀ r ∈ s.rs, r.Ok s.w
  size : s.content.length < u64 / 2
  cds : cdsOk [] 1 s.rs
  starts : startsCd s.rs
  ascii : ∀ r ∈ s.rs, r.isAscii

/-- Part of the specification, models no code. -/
def allVars (files : List SrcFile) : List (List Bytes × Nat × Bytes) :=
  files.flatMap (fun s => varsOf [] s.rs)

/-- Part of the specification, models no code. -/
def allFolders (files : List SrcFile) : List (List Bytes) :=
  files.flatMap (fun s => foldersOf [] s.rs)

/-- A set of well formed files in which no path is both a variable and a folder.
Part of the specification, models no code. -/
structure GoodSet (files : List SrcFile) : Prop where
  ok : ∀ s ∈ files, s.Ok
  few : files.length ≤ 256
  noClash : ∀ v ∈ allVars files, ∀ p ∈ allFolders files, ¬ v.1 <+: p

/-- The last variable stored under a path: type and payload.
Part of the specification, models no code. -/
def lastVar (vars : List (List Bytes × Nat × Bytes)) (q : List Bytes) : Option (Nat × Bytes) :=
  (vars.reverse.find? (fun v => v.1 = q)).map Prod.snd

/-- What the directory says about a variable, looked up in the contents of the files: the
type and the bytes at the recorded position. Part of the specification, models no code. -/
def describe (contents : List Bytes) (i : FileInfo) : Nat × Bytes :=
  (i.varType, ((contents.getD i.fileIndex []).drop i.filePos).take i.size)

/-! ## The directory operations of a file -/

/-- The directory operations that the records amount to. The payload is the last part of a
DATA record. Part of the specification, models no code. -/
def fileOps (w : Header) (fi : Nat) : Nat → List Bytes → List WRec → List DirOp
  | _, _, [] => []
  | pos, cur, .cd p :: rs =>
    .cd (cdTarget cur p) :: fileOps w fi (pos + (encRec w (.cd p)).length) (cdTarget cur p) rs
  | pos, cur, .data ty name pl :: rs =>
    .data name ⟨ty, pl.length, fi, pos + (encRec w (.data ty name pl)).length - pl.length⟩ ::
      fileOps w fi (pos + (encRec w (.data ty name pl)).length) cur rs
  | pos, cur, .other c pl :: rs =>
    fileOps w fi (pos + (encRec w (.other c pl)).length) cur rs

/-- Part of the specification, models no code. -/
def allOps : Nat → List SrcFile → List DirOp
  | _, [] => []
  | i, s :: t => fileOps s.w i 8 [] s.rs ++ allOps (i + 1) t

/-- The parser performs exactly these operations. -/
theorem parseLoop_enc (w : Header) (hw : w.Ok) (fi : Nat) (hfi : fi < 256) (f : Bytes)
    (hlen : f.length < u64 / 2) (rs : List WRec) : ∀ (_ : ∀ r ∈ rs, r.Ok w) (pre : Bytes)
    (_ : f = pre ++ encRecs w rs) (cl : List Bytes) (n k : Nat) (s : PState)
    (_ : s.pos = pre.length) (_ : PathInv s.curPath cl n) (_ : cdsOk cl n rs),
    parseLoop w fi f (rs.length + 1 + k) s =
      (do let d ← dirRun s.dir (fileOps w fi pre.length cl rs)
          .ok (some ⟨d.kids, none⟩)) := by
  induction rs with
  | nil =>
    intro hr pre hf cl n k s hp _ _
    rw [show ([] : List WRec).length + 1 + k = k + 1 by simp; omega, parseLoop]
    have : readRecord w f s.pos = .done := by
      unfold readRecord
      rw [if_pos (by rw [hf, hp]; simp [encRecs])]
    rw [this]
    simp [fileOps, dirRun]
  | cons r rs ih =>
    intro hr pre hf cl n k s hp hi hcds
    rw [show (r :: rs).length + 1 + k = (rs.length + 1 + k) + 1 by simp; omega, parseLoop]
    have hf' : f = pre ++ (encRec w r ++ encRecs w rs) := by rw [hf]; rfl
    have hrec := readRecord_enc w hw r (hr r (by simp)) pre (encRecs w rs) f hf' hlen
    rw [hp, hrec]
    have hr' : ∀ x ∈ rs, x.Ok w := fun x hx => hr x (by simp [hx])
    have hf2 : f = (pre ++ encRec w r) ++ encRecs w rs := by rw [hf']; simp
    have hl2 : (pre ++ encRec w r).length = pre.length + (encRec w r).length := by simp
    cases r with
    | cd p =>
      obtain ⟨c1, c2, c3⟩ := hcds
      obtain ⟨cur', e1, i1⟩ := changeDir_spec hi p c1 c2
      simp only [WRec.event, applyRec]
      rw [e1]
      simp only [Res.bind_ok, fileOps, dirRun]
      cases hd : dirStep s.dir (.cd (cdTarget cl p)) with
      | ok d =>
        simp only [Res.bind_ok]
        rw [ih hr' _ hf2 (cdTarget cl p) _ k _ hl2.symm i1 c3, hl2]
      | err => rfl
      | ub => rfl
      | abort => rfl
    | data ty name pl =>
      simp only [WRec.event, applyRec, fileOps, dirRun]
      have hpos : pre.length + w.lenSize + w.cmdSize + w.typSize + 1 + name.length =
          pre.length + (encRec w (.data ty name pl)).length - pl.length := by
        rw [encRec_length]; simp [encBody, leBytes_length]; omega
      rw [hpos, Nat.mod_eq_of_lt hfi]
      cases hd : dirStep s.dir (.data name ⟨ty, pl.length, fi,
          pre.length + (encRec w (.data ty name pl)).length - pl.length⟩) with
      | ok d =>
        simp only [Res.bind_ok]
        have := ih hr' _ hf2 cl n k
          ⟨pre.length + (encRec w (.data ty name pl)).length, s.curPath, d⟩ hl2.symm hi hcds
        rw [hl2] at this; exact this
      | err => rfl
      | ub => rfl
      | abort => rfl
    | other c pl =>
      simp only [WRec.event, applyRec, fileOps, Res.bind_ok]
      have := ih hr' _ hf2 cl n k
        ⟨pre.length + (encRec w (.other c pl)).length, s.curPath, s.dir⟩ hl2.symm hi hcds
      rw [hl2] at this; exact this

theorem readHeader_enc (w : Header) (hw : w.Ok) (rest : Bytes) :
    readHeader (encHeader w ++ rest) = .inl w := by
  obtain ⟨_, h1, _, h2, _, h3⟩ := hw
  unfold encHeader readHeader
  simp only [List.cons_append]
  rw [if_neg (by simp), if_neg (by omega), if_neg (by omega), if_neg (by omega), if_neg (by simp)]

theorem pathInv_root : PathInv [SEP] [] 1 :=
  ⟨rfl, by simp [SEP], by simp, by simp [components_sep, components_nil], by simp⟩

theorem parseFile_enc (s : SrcFile) (hs : s.Ok) (fi : Nat) (hfi : fi < 256) (kids : List Entry)
    (fuel : Nat) (hfuel : s.rs.length < fuel) :
    parseFile fuel fi (some s.content) kids =
      (do let d ← dirRun ⟨kids, none⟩ (fileOps s.w fi 8 [] s.rs)
          .ok (some ⟨d.kids, none⟩)) := by
  unfold parseFile
  simp only [SrcFile.content, encFile]
  rw [readHeader_enc s.w hs.widths]
  simp only
  obtain ⟨k, hk⟩ : ∃ k, fuel = s.rs.length + 1 + k := ⟨fuel - s.rs.length - 1, by omega⟩
  rw [hk]
  have hl : (encHeader s.w).length = 8 := rfl
  have := parseLoop_enc s.w hs.widths fi hfi _ hs.size s.rs hs.recs (encHeader s.w) rfl [] 1 k
    ⟨8, [SEP], ⟨kids, none⟩⟩ rfl pathInv_root hs.cds
  rw [hl] at this; exact this

theorem fileOps_starts (w : Header) (fi : Nat) (rs : List WRec) : ∀ (pos : Nat)
    (cur : List Bytes), startsCd rs → StartsWithCd (fileOps w fi pos cur rs) := by
  induction rs with
  | nil => intro _ _ _; exact .inl rfl
  | cons r rs ih =>
    intro pos cur h
    cases r with
    | cd p => exact .inr ⟨_, _, rfl⟩
    | data => exact absurd h (by simp [startsCd])
    | other c pl => exact ih _ _ h

theorem startsWithCd_append {a b : List DirOp} (ha : StartsWithCd a) (hb : StartsWithCd b) :
    StartsWithCd (a ++ b) := by
  rcases ha with rfl | ⟨p, t, rfl⟩
  · simpa using hb
  · exact .inr ⟨p, t ++ b, rfl⟩

/-- The current folder does not matter for operations that start with a `cd`. -/
theorem dirRun_reset (kids : List Entry) (c : Option (List Bytes)) (ops : List DirOp)
    (h : StartsWithCd ops) (st : DirState) (hr : dirRun ⟨kids, c⟩ ops = .ok st) :
    ∃ st', dirRun ⟨kids, none⟩ ops = .ok st' ∧ st'.kids = st.kids := by
  rcases h with rfl | ⟨p, t, rfl⟩
  · simp [dirRun] at hr; subst hr; exact ⟨_, rfl, rfl⟩
  · refine ⟨st, ?_, rfl⟩
    rw [← hr]; rfl

/-- Opening a good set: the directory represents all operations of all files. -/
theorem openFiles_enc (fuel : Nat) (rest : List SrcFile) : ∀ (i : Nat) (pre : List DirOp)
    (c : Option (List Bytes)) (st : OpenState),
    (∀ s ∈ rest, s.Ok ∧ s.rs.length < fuel) → i + rest.length ≤ 256 →
    NoClash (pre ++ allOps i rest) → StartsWithCd pre → Represents pre st.kids →
    (pre ≠ [] → c = some (lastCd [] pre)) →
    ∃ kids, openFiles fuel i (rest.map (fun s => (s.name, some s.content))) st =
        .ok (some ⟨kids, st.files ++ rest.map (fun s => some s.content), st.errors⟩) ∧
      Represents (pre ++ allOps i rest) kids := by
  induction rest with
  | nil =>
    intro i pre c st _ _ _ _ hr _
    exact ⟨st.kids, by simp [openFiles], by simpa [allOps] using hr⟩
  | cons s t ih =>
    intro i pre c st hok hlen hnc hsc hr hc
    obtain ⟨hs, hfu⟩ := hok s (by simp)
    simp only [allOps] at hnc ⊢
    rw [← List.append_assoc] at hnc ⊢
    have hst := fileOps_starts s.w i s.rs 8 [] hs.starts
    have hnc1 : NoClash (pre ++ fileOps s.w i 8 [] s.rs) := by
      intro v hv hf
      refine hnc v ?_ ?_
      · simp only [writes] at *; rw [writesFrom_append]; simp [hv]
      · rcases hf with h | ⟨p, h1, h2⟩
        · exact .inl h
        · exact .inr ⟨p, by simp at h1 ⊢; tauto, h2⟩
    obtain ⟨st1, r1, r2, r3⟩ := dirRun_represents (fileOps s.w i 8 [] s.rs) pre ⟨st.kids, c⟩
      hnc1 (startsWithCd_append hsc hst) hr hc
    obtain ⟨st2, q1, q2⟩ := dirRun_reset st.kids c _ hst st1 r1
    simp only [List.length_cons] at hlen
    have hp := parseFile_enc s hs i (by omega) st.kids fuel hfu
    rw [q1] at hp
    simp only [Res.bind_ok] at hp
    obtain ⟨kids, k1, k2⟩ := ih (i + 1) (pre ++ fileOps s.w i 8 [] s.rs) st1.cur
      ⟨st1.kids, st.files ++ [some s.content], st.errors⟩
      (fun x hx => hok x (by simp [hx])) (by omega) hnc (startsWithCd_append hsc hst)
      r2 r3
    refine ⟨kids, ?_, k2⟩
    simp only [List.map_cons, openFiles]
    rw [hp]
    simp only [Res.bind_ok]
    rw [q2, k1]
    simp

theorem cleanUpLoop_good (files : List (Option Bytes)) (h : ∀ x ∈ files, x ≠ none) (n : Nat) :
    ∀ i, cleanUpLoop n files i = files := by
  induction n with
  | zero => intro i; rfl
  | succ n ih =>
    intro i
    unfold cleanUpLoop
    cases hx : files[i]? with
    | none => rfl
    | some o =>
      cases o with
      | none => exact absurd rfl (h _ (List.mem_of_getElem? hx))
      | some v => exact ih (i + 1)

theorem cleanUp_good (files : List (Option Bytes)) (h : ∀ x ∈ files, x ≠ none) :
    cleanUp files = files := cleanUpLoop_good files h _ _

/-! ## The operations describe the variables -/

theorem writesFrom_fileOps (w : Header) (fi : Nat) (f : Bytes) (rs : List WRec) :
    ∀ (pre : Bytes) (cur : List Bytes), f = pre ++ encRecs w rs →
    (writesFrom cur (fileOps w fi pre.length cur rs)).map
      (fun x => (x.1, x.2.varType, (f.drop x.2.filePos).take x.2.size)) = varsOf cur rs ∧
    (∀ x ∈ writesFrom cur (fileOps w fi pre.length cur rs), x.2.fileIndex = fi ∧
      x.2.filePos + x.2.size ≤ f.length) := by
  induction rs with
  | nil => intro pre cur _; simp [fileOps, writesFrom, varsOf]
  | cons r rs ih =>
    intro pre cur hf
    have hf2 : f = (pre ++ encRec w r) ++ encRecs w rs := by rw [hf]; simp [encRecs]
    have hl2 : (pre ++ encRec w r).length = pre.length + (encRec w r).length := by simp
    cases r with
    | cd p =>
      simp only [fileOps, writesFrom, varsOf]
      have := ih _ (cdTarget cur p) hf2
      rw [hl2] at this; exact this
    | data ty name pl =>
      simp only [fileOps, writesFrom, varsOf, List.map_cons]
      have hsl : (f.drop (pre.length + (encRec w (.data ty name pl)).length - pl.length)).take
          pl.length = pl := by
        obtain ⟨q, hq⟩ : ∃ q, encRec w (.data ty name pl) = q ++ pl :=
          ⟨leBytes w.lenSize (w.lenSize + w.cmdSize + (encBody w (.data ty name pl)).length) ++
            (leBytes w.cmdSize 3 ++ (leBytes w.typSize ty ++ (name.length :: name))), by
            simp [encRec, encBody, WRec.cmd]⟩
        rw [hf2, hq]
        rw [show pre.length + (q ++ pl).length - pl.length = (pre ++ q).length by simp; omega]
        rw [show pre ++ (q ++ pl) ++ encRecs w rs = (pre ++ q) ++ (pl ++ encRecs w rs) by simp]
        exact slice_mid _ _ _ _ rfl
      have := ih _ cur hf2
      rw [hl2] at this
      rw [this.1, hsl]
      refine ⟨rfl, ?_⟩
      intro x hx
      simp only [List.mem_cons] at hx
      rcases hx with rfl | hx
      · refine ⟨rfl, ?_⟩
        have h1 : f.length = pre.length + (encRec w (.data ty name pl)).length +
            (encRecs w rs).length := by rw [hf2]; simp; omega
        have h2 : pl.length ≤ (encRec w (.data ty name pl)).length := by
          rw [encRec_length]; simp [encBody]; omega
        simp only; omega
      · exact this.2 x hx
    | other c pl =>
      simp only [fileOps, varsOf]
      have := ih _ cur hf2
      rw [hl2] at this; exact this

theorem lastCd_startsWithCd {ops : List DirOp} (cur cur' : List Bytes) (h : StartsWithCd ops)
    (hne : ops ≠ []) : lastCd cur ops = lastCd cur' ops := by
  rcases h with rfl | ⟨p, t, rfl⟩
  · exact absurd rfl hne
  · rfl

theorem writesFrom_startsWithCd {ops : List DirOp} (cur cur' : List Bytes)
    (h : StartsWithCd ops) : writesFrom cur ops = writesFrom cur' ops := by
  rcases h with rfl | ⟨p, t, rfl⟩ <;> rfl

theorem allOps_starts (files : List SrcFile) : ∀ i, (∀ s ∈ files, s.Ok) →
    StartsWithCd (allOps i files) := by
  induction files with
  | nil => intro _ _; exact .inl rfl
  | cons s t ih =>
    intro i h
    exact startsWithCd_append (fileOps_starts _ _ _ _ _ (h s (by simp)).starts)
      (ih _ (fun x hx => h x (by simp [hx])))

theorem writesFrom_allOps (contents : List Bytes) (rest : List SrcFile) :
    ∀ (i : Nat) (cur : List Bytes), (∀ s ∈ rest, s.Ok) →
    (∀ j, j < rest.length → contents[i + j]? = (rest.map SrcFile.content)[j]?) →
    (writesFrom cur (allOps i rest)).map (fun x => (x.1, describe contents x.2)) =
      allVars rest ∧
    (∀ x ∈ writesFrom cur (allOps i rest), ∃ c, contents[x.2.fileIndex]? = some c ∧
      x.2.filePos + x.2.size ≤ c.length) := by
  induction rest with
  | nil => intro i cur _ _; simp [allOps, writesFrom, allVars]
  | cons s t ih =>
    intro i cur hok hc
    have hst := fileOps_starts s.w i s.rs 8 [] (hok s (by simp)).starts
    have hstt := allOps_starts t (i + 1) (fun x hx => hok x (by simp [hx]))
    simp only [allOps, writesFrom_append, List.map_append, allVars, List.flatMap_cons]
    have h1 := writesFrom_fileOps s.w i s.content s.rs (encHeader s.w) [] rfl
    have hl : (encHeader s.w).length = 8 := rfl
    rw [hl] at h1
    have h2 := ih (i + 1) (lastCd cur (fileOps s.w i 8 [] s.rs))
      (fun x hx => hok x (by simp [hx])) (by
        intro j hj
        have := hc (j + 1) (by simp; omega)
        simpa [Nat.add_assoc, Nat.add_comm 1 j] using this)
    have hc0 : contents[i]? = some s.content := by simpa using hc 0 (by simp)
    rw [writesFrom_startsWithCd cur [] hst]
    refine ⟨?_, ?_⟩
    · rw [h2.1]
      congr 1
      rw [← h1.1]
      apply List.map_congr_left
      intro x hx
      have := (h1.2 x hx).1
      simp only [describe, this]
      simp [List.getD, hc0]
    · intro x hx
      rw [List.mem_append] at hx
      rcases hx with hx | hx
      · have := h1.2 x hx
        exact ⟨s.content, by rw [this.1, hc0], this.2⟩
      · exact h2.2 x hx

theorem lastWrite_describe (contents : List Bytes) (ops : List DirOp)
    (vars : List (List Bytes × Nat × Bytes))
    (h : (writes ops).map (fun x => (x.1, describe contents x.2)) = vars) (q : List Bytes) :
    (lastWrite ops q).map (describe contents) = lastVar vars q := by
  unfold lastWrite lastVar
  rw [← h, ← List.map_reverse, List.find?_map]
  simp only [Option.map_map]
  congr 1

/-! ## Clash freedom and 7-bit names transfer to the operations -/

theorem cds_fileOps (w : Header) (fi : Nat) (rs : List WRec) : ∀ (pos : Nat) (cur : List Bytes)
    (p : List Bytes), DirOp.cd p ∈ fileOps w fi pos cur rs → p ∈ foldersOf cur rs := by
  induction rs with
  | nil => intro _ _ _ h; simp [fileOps] at h
  | cons r rs ih =>
    intro pos cur p h
    cases r with
    | cd q =>
      simp only [fileOps, List.mem_cons, DirOp.cd.injEq] at h
      simp only [foldersOf, List.mem_cons]
      rcases h with h | h
      · exact .inl h
      · exact .inr (ih _ _ _ h)
    | data ty name pl =>
      simp only [fileOps, List.mem_cons, reduceCtorEq, false_or] at h
      exact ih _ _ _ h
    | other c pl => exact ih _ _ _ h

theorem cds_allOps (files : List SrcFile) : ∀ (i : Nat) (p : List Bytes),
    DirOp.cd p ∈ allOps i files → p ∈ allFolders files := by
  induction files with
  | nil => intro _ _ h; simp [allOps] at h
  | cons s t ih =>
    intro i p h
    simp only [allOps, List.mem_append] at h
    simp only [allFolders, List.flatMap_cons, List.mem_append]
    rcases h with h | h
    · exact .inl (cds_fileOps _ _ _ _ _ _ h)
    · exact .inr (ih _ _ h)

theorem foldersOf_ne_nil (rs : List WRec) : ∀ (cur : List Bytes) (n : Nat), cdsOk cur n rs →
    ∀ p ∈ foldersOf cur rs, p ≠ [] := by
  induction rs with
  | nil => intro _ _ _ p h; simp [foldersOf] at h
  | cons r rs ih =>
    intro cur n h p hp
    cases r with
    | cd q =>
      simp only [foldersOf, List.mem_cons] at hp
      rcases hp with rfl | hp
      · exact h.1.2.2.2.2.2
      · exact ih _ _ h.2.2 p hp
    | data => exact ih _ _ h p hp
    | other => exact ih _ _ h p hp

theorem varsOf_ne_nil (rs : List WRec) : ∀ (cur : List Bytes), ∀ v ∈ varsOf cur rs, v.1 ≠ [] := by
  induction rs with
  | nil => intro _ v h; simp [varsOf] at h
  | cons r rs ih =>
    intro cur v h
    cases r with
    | cd q => exact ih _ v h
    | data ty name pl =>
      simp only [varsOf, List.mem_cons] at h
      rcases h with rfl | h
      · simp
      · exact ih _ v h
    | other => exact ih _ v h

theorem noClash_allOps (files : List SrcFile) (h : GoodSet files) : NoClash (allOps 0 files) := by
  intro v hv hf
  have hm := (writesFrom_allOps (files.map SrcFile.content) files 0 [] h.ok (by simp)).1
  have hv2 : (v.1, describe (files.map SrcFile.content) v.2) ∈ allVars files := by
    rw [← hm]; exact List.mem_map.2 ⟨v, hv, rfl⟩
  rcases hf with hf | ⟨p, h1, h2⟩
  · obtain ⟨s, hs, hvs⟩ := List.mem_flatMap.1 hv2
    exact varsOf_ne_nil _ _ _ hvs hf
  · exact h.noClash _ hv2 p (cds_allOps files 0 p h1) h2

theorem nonRoot_allOps (files : List SrcFile) (h : ∀ s ∈ files, s.Ok) : NonRoot (allOps 0 files) := by
  intro p hp
  have := cds_allOps files 0 p hp
  obtain ⟨s, hs, hps⟩ := List.mem_flatMap.1 this
  exact foldersOf_ne_nil _ _ _ (h s hs).cds p hps

theorem cdTarget_ascii {cur : List Bytes} {p : Bytes} (hc : ∀ c ∈ cur, Ascii c) (hp : Ascii p) :
    ∀ c ∈ cdTarget cur p, Ascii c := by
  have hcomp : ∀ c ∈ components p, Ascii c := fun c hc x hx => hp x ((components_mem hc).2.2 x hx)
  unfold cdTarget
  split
  · exact hcomp
  · generalize components p = cs at hcomp
    induction cs generalizing cur with
    | nil => simpa using hc
    | cons d ds ih =>
      simp only [List.foldl_cons]
      apply ih
      · split
        · intro c h; exact hc c ((List.dropLast_subset _) h)
        · intro c h
          simp at h
          rcases h with h | rfl
          · exact hc c h
          · exact hcomp _ (by simp)
      · intro c h; exact hcomp c (by simp [h])

theorem asciiOps_fileOps (w : Header) (fi : Nat) (rs : List WRec) : ∀ (pos : Nat)
    (cur : List Bytes), (∀ c ∈ cur, Ascii c) → (∀ r ∈ rs, r.isAscii) →
    AsciiOps (fileOps w fi pos cur rs) := by
  induction rs with
  | nil => intro _ _ _ _ op h; simp [fileOps] at h
  | cons r rs ih =>
    intro pos cur hc hr op hop
    have hr' : ∀ x ∈ rs, x.isAscii := fun x hx => hr x (by simp [hx])
    have h0 := hr r (by simp)
    cases r with
    | cd q =>
      simp only [fileOps, List.mem_cons] at hop
      have ht := cdTarget_ascii hc h0
      rcases hop with rfl | hop
      · exact ht
      · exact ih _ _ ht hr' op hop
    | data ty name pl =>
      simp only [fileOps, List.mem_cons] at hop
      rcases hop with rfl | hop
      · exact h0
      · exact ih _ _ hc hr' op hop
    | other => exact ih _ _ hc hr' op hop

theorem asciiOps_allOps (files : List SrcFile) : ∀ i, (∀ s ∈ files, s.Ok) →
    AsciiOps (allOps i files) := by
  induction files with
  | nil => intro _ _ op h; simp [allOps] at h
  | cons s t ih =>
    intro i h op hop
    simp only [allOps, List.mem_append] at hop
    rcases hop with hop | hop
    · exact asciiOps_fileOps _ _ _ _ _ (by simp) (h s (by simp)).ascii op hop
    · exact ih _ (fun x hx => h x (by simp [hx])) op hop

theorem le_sum_of_mem (l : List Nat) (x : Nat) (h : x ∈ l) : x ≤ l.sum := by
  induction l with
  | nil => simp at h
  | cons a t ih =>
    simp at h
    rcases h with rfl | h
    · simp
    · have := ih h; simp; omega

/-- Everything about opening a good set of files. -/
theorem open_good (files : List SrcFile) (h : GoodSet files) (hne : files ≠ []) :
    ∃ n, ∀ fuel, n ≤ fuel → ∀ pattern, ∃ kids,
      binoutOpen fuel pattern (files.map (fun s => (s.name, some s.content))) =
        .ok (some ⟨kids, files.map (fun s => some s.content), none⟩) ∧
      Represents (allOps 0 files) kids := by
  refine ⟨(files.map (fun s => s.rs.length)).sum + 1, ?_⟩
  intro fuel hfuel pattern
  have hlt : ∀ s ∈ files, s.rs.length < fuel := by
    intro s hs
    have : s.rs.length ≤ (files.map (fun s => s.rs.length)).sum :=
      le_sum_of_mem _ _ (List.mem_map.2 ⟨s, hs, rfl⟩)
    omega
  obtain ⟨kids, k1, k2⟩ := openFiles_enc fuel files 0 [] none {}
    (fun s hs => ⟨h.ok s hs, hlt s hs⟩) (by simpa using h.few)
    (by simpa using noClash_allOps files h) (.inl rfl) represents_nil (by simp)
  refine ⟨kids, ?_, by simpa using k2⟩
  unfold binoutOpen
  rw [if_neg (by simpa using hne), k1]
  simp only [Res.bind_ok, List.nil_append]
  rw [cleanUp_good _ (by simp)]
  rfl

end Dyna
