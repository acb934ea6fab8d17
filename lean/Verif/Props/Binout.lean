import Verif.BinoutSpec
import Verif.BinoutBounds
import Verif.BinoutRead
/-!
# Properties of opening binout files (C12-C17, C21)
-/

namespace Dyna

/-! ## C12 Record round trip, C17 file association -/

theorem open_lookup (files : List SrcFile) (h : GoodSet files) {kids : List Entry}
    (hr : Represents (allOps 0 files) kids) (path : Bytes) (habs : path.head? = some SEP)
    (h0 : 0 ∉ path) (hb : ∀ c ∈ path, c < 256) :
    ∃ o, getFile kids path = .ok o ∧
      o.map (describe (files.map SrcFile.content)) = lastVar (allVars files) (components path) ∧
      ∀ i, o = some i → ∃ c, (files.map SrcFile.content)[i.fileIndex]? = some c ∧
        i.filePos + i.size ≤ c.length := by
  have hw := writesFrom_allOps (files.map SrcFile.content) files 0 [] h.ok (by simp)
  refine ⟨_, getFile_of_represents hr (asciiOps_allOps files 0 h.ok) (nonRoot_allOps files h.ok)
    path habs h0 hb (allOps_starts files 0 h.ok), ?_, ?_⟩
  · exact lastWrite_describe _ _ _ hw.1 _
  · intro i hi
    exact hw.2 _ (lastWrite_some_mem hi)

/-- C12. Opening a well formed file succeeds without an error, and looking up any path gives
the type, the size and the position of the last variable written under it: the bytes at the
position are its payload. -/
theorem c12_round_trip (s : SrcFile) (h : GoodSet [s]) :
    ∃ n, ∀ fuel, n ≤ fuel → ∀ pattern, ∃ kids,
      binoutOpen fuel pattern [(s.name, some s.content)] =
        .ok (some ⟨kids, [some s.content], none⟩) ∧
      ∀ path : Bytes, path.head? = some SEP → 0 ∉ path → (∀ c ∈ path, c < 256) →
        match lastVar (varsOf [] s.rs) (components path) with
        | none => getFile kids path = .ok none
        | some (ty, payload) => ∃ i, getFile kids path = .ok (some i) ∧ i.varType = ty ∧
            i.size = payload.length ∧ (s.content.drop i.filePos).take i.size = payload := by
  obtain ⟨n, hn⟩ := open_good [s] h (by simp)
  refine ⟨n, fun fuel hf pattern => ?_⟩
  obtain ⟨kids, k1, k2⟩ := hn fuel hf pattern
  refine ⟨kids, k1, fun path habs h0 hb => ?_⟩
  obtain ⟨o, o1, o2, o3⟩ := open_lookup [s] h k2 path habs h0 hb
  have hv : allVars [s] = varsOf [] s.rs := by simp [allVars]
  rw [hv] at o2
  cases o with
  | none => simp at o2; rw [← o2]; exact o1
  | some i =>
    simp only [Option.map_some] at o2
    rw [← o2]
    obtain ⟨c, c1, c2⟩ := o3 i rfl
    have hi : i.fileIndex = 0 := by
      by_contra hne
      rw [List.getElem?_eq_none (by simp; omega)] at c1
      simp at c1
    rw [hi] at c1
    simp at c1
    subst c1
    refine ⟨i, o1, rfl, ?_, ?_⟩
    · simp [hi]; omega
    · simp [hi]

/-! ## C14 Unknown records -/

/-- Records other than CD and DATA. -/
def WRec.known : WRec → Bool
  | .other _ _ => false
  | _ => true

/-- The file without its unknown records. -/
def SrcFile.strip (s : SrcFile) : SrcFile := { s with rs := s.rs.filter WRec.known }

theorem varsOf_strip (rs : List WRec) : ∀ cur, varsOf cur (rs.filter WRec.known) = varsOf cur rs := by
  induction rs with
  | nil => intro _; rfl
  | cons r rs ih =>
    intro cur
    cases r <;> simp [List.filter_cons, WRec.known, varsOf, ih]

theorem foldersOf_strip (rs : List WRec) :
    ∀ cur, foldersOf cur (rs.filter WRec.known) = foldersOf cur rs := by
  induction rs with
  | nil => intro _; rfl
  | cons r rs ih =>
    intro cur
    cases r <;> simp [List.filter_cons, WRec.known, foldersOf, ih]

theorem cdsOk_strip (rs : List WRec) :
    ∀ cur n, cdsOk cur n rs → cdsOk cur n (rs.filter WRec.known) := by
  induction rs with
  | nil => intro _ _ h; exact h
  | cons r rs ih =>
    intro cur n h
    cases r with
    | cd p => simp only [WRec.known, List.filter_cons]; exact ⟨h.1, h.2.1, ih _ _ h.2.2⟩
    | data => simp only [WRec.known, List.filter_cons]; exact ih _ _ h
    | other => simp only [WRec.known, List.filter_cons]; exact ih _ _ h

theorem startsCd_strip (rs : List WRec) : startsCd rs → startsCd (rs.filter WRec.known) := by
  induction rs with
  | nil => intro h; exact h
  | cons r rs ih =>
    intro h
    cases r with
    | cd p => exact trivial
    | data => exact absurd h (by simp [startsCd])
    | other => exact ih h

theorem encRecs_strip_length (w : Header) (rs : List WRec) :
    (encRecs w (rs.filter WRec.known)).length ≤ (encRecs w rs).length := by
  induction rs with
  | nil => simp
  | cons r rs ih =>
    rw [List.filter_cons]
    split
    · simp [encRecs]; exact ih
    · simp [encRecs]; omega

theorem strip_ok {s : SrcFile} (h : s.Ok) : s.strip.Ok where
  widths := h.widths
  recs := fun r hr => h.recs r (List.mem_filter.1 hr).1
  size := by
    have := encRecs_strip_length s.w s.rs
    have h2 := h.size
    simp only [SrcFile.content, encFile, SrcFile.strip, List.length_append] at *
    omega
  cds := cdsOk_strip _ _ _ h.cds
  starts := startsCd_strip _ h.starts
  ascii := fun r hr => h.ascii r (List.mem_filter.1 hr).1

theorem allVars_strip (files : List SrcFile) : allVars (files.map SrcFile.strip) = allVars files := by
  induction files with
  | nil => rfl
  | cons s t ih =>
    simp only [allVars, List.map_cons, List.flatMap_cons] at *
    rw [ih]; congr 1; exact varsOf_strip _ _

theorem allFolders_strip (files : List SrcFile) :
    allFolders (files.map SrcFile.strip) = allFolders files := by
  induction files with
  | nil => rfl
  | cons s t ih =>
    simp only [allFolders, List.map_cons, List.flatMap_cons] at *
    rw [ih]; congr 1; exact foldersOf_strip _ _

theorem goodSet_strip {files : List SrcFile} (h : GoodSet files) :
    GoodSet (files.map SrcFile.strip) where
  ok := by
    intro s hs
    obtain ⟨t, ht, rfl⟩ := List.mem_map.1 hs
    exact strip_ok (h.ok t ht)
  few := by simpa using h.few
  noClash := by rw [allVars_strip, allFolders_strip]; exact h.noClash

/-- C14. A well formed set of files and the same set without its unknown records give
directories in which every path leads to the same type and the same data. -/
theorem c14_unknown_records_ignored (files : List SrcFile) (h : GoodSet files)
    (hne : files ≠ []) :
    ∃ n, ∀ fuel, n ≤ fuel → ∀ pattern, ∃ kids kids',
      binoutOpen fuel pattern (files.map (fun s => (s.name, some s.content))) =
        .ok (some ⟨kids, files.map (fun s => some s.content), none⟩) ∧
      binoutOpen fuel pattern (files.map (fun s => (s.name, some s.strip.content))) =
        .ok (some ⟨kids', files.map (fun s => some s.strip.content), none⟩) ∧
      ∀ path : Bytes, path.head? = some SEP → 0 ∉ path → (∀ c ∈ path, c < 256) →
        ∃ o o', getFile kids path = .ok o ∧ getFile kids' path = .ok o' ∧
          o.map (describe (files.map SrcFile.content)) =
            o'.map (describe (files.map (fun s => s.strip.content))) := by
  have h' := goodSet_strip h
  obtain ⟨n, hn⟩ := open_good files h hne
  obtain ⟨m, hm⟩ := open_good _ h' (by simpa using hne)
  refine ⟨max n m, fun fuel hf pattern => ?_⟩
  obtain ⟨kids, k1, k2⟩ := hn fuel (by omega) pattern
  obtain ⟨kids', k1', k2'⟩ := hm fuel (by omega) pattern
  refine ⟨kids, kids', k1, ?_, fun path habs h0 hb => ?_⟩
  · simp only [List.map_map] at k1'
    exact k1'
  · obtain ⟨o, o1, o2, _⟩ := open_lookup files h k2 path habs h0 hb
    obtain ⟨o', p1, p2, _⟩ := open_lookup _ h' k2' path habs h0 hb
    refine ⟨o, o', o1, p1, ?_⟩
    rw [o2, ← allVars_strip, ← p2]
    simp only [List.map_map]
    rfl

/-- C14 for arbitrary file contents: after an unknown record the parser continues behind it
with an unchanged directory, current folder and path. -/
theorem c14_skip (h : Header) (fi : Nat) (f : Bytes) (fuel : Nat) (s : PState) (cmd next : Nat)
    (hr : readRecord h f s.pos = .rcd (.other cmd) next) :
    parseLoop h fi f (fuel + 1) s = parseLoop h fi f fuel { s with pos := next } := by
  rw [parseLoop, hr]; rfl

/-! ## C13 Termination and bounds -/

/-- The positions at which the parser looks for a record. -/
inductive Reaches (h : Header) (f : Bytes) : Nat → Prop
  | start : Reaches h f 8
  | step {pos next : Nat} {r : Rec} : Reaches h f pos → readRecord h f pos = .rcd r next →
      Reaches h f next

/-- Value of an `n` byte field at a position. -/
def fieldAt (f : Bytes) (pos n : Nat) : Nat := leNat ((f.drop pos).take n)

/-- Every record the parser meets has a length that covers at least its own fixed parts
(and is less than 2^63). -/
def LengthsSane (h : Header) (f : Bytes) : Prop :=
  ∀ pos, Reaches h f pos → pos + h.lenSize + h.cmdSize ≤ f.length →
    let len := fieldAt f pos h.lenSize
    h.lenSize + h.cmdSize ≤ len ∧ len < u64 / 2 ∧
    (fieldAt f (pos + h.lenSize) h.cmdSize = 3 →
      pos + h.lenSize + h.cmdSize + h.typSize + 1 ≤ f.length →
      h.lenSize + h.cmdSize + h.typSize + 1 +
        fieldAt f (pos + h.lenSize + h.cmdSize + h.typSize) 1 ≤ len)

theorem freadObj_some {f : Bytes} {pos n : Nat} {b : Bytes} (h : freadObj f pos n = some b) :
    0 < n ∧ pos + n ≤ f.length ∧ leNat b = fieldAt f pos n := by
  unfold freadObj at h
  split at h
  · simp at h
  · split at h
    · simp at h; refine ⟨by omega, by assumption, ?_⟩; rw [← h]; rfl
    · simp at h

theorem fseekCur_some {p d next : Nat} (hd : d < u64 / 2) (h : fseekCur p d = some next) :
    next = p + d := by
  unfold fseekCur at h
  rw [if_pos hd] at h
  split at h
  · simpa using h.symm
  · simp at h

/-- C13: where the next record is looked for when a length of 64 bit is taken as a signed number: at the sum, if that is a position
in a file. -/
theorem c13_seek (p d q : Nat) (hp : p < u64 / 2) (hd : d < u64) : fseekCur p d = some q ↔
    (q : Int) = (p : Int) + (if d < u64 / 2 then (d : Int) else (d : Int) - (u64 : Int)) ∧ q < u64 / 2 := by
  unfold fseekCur
  unfold u64 at *
  by_cases h : d < 18446744073709551616 / 2
  · simp only [h, if_true]
    split
    · simp only [Option.some.injEq]
      omega
    · simp only [reduceCtorEq, false_iff]
      omega
  · simp only [h, if_false]
    split
    · simp only [Option.some.injEq]
      omega
    · simp only [reduceCtorEq, false_iff]
      omega

/-- Not vacuous: back to the start. -/
example : fseekCur 16 (2 ^ 64 - 16) = some 0 := by decide +kernel

theorem u64_half : u64 / 2 + u64 / 2 = u64 := by simp [u64]

theorem readData_eq (h : Header) (f : Bytes) (p dl : Nat) : readData h f p dl =
    match freadObj f p h.typSize with
    | none => .fail (some 3) (bs "Failed to read TYPEID of DATA record")
    | some ty =>
      match freadObj f (p + h.typSize) 1 with
      | none => .fail (some 3) (bs "Failed to read Name length of DATA record")
      | some nl =>
        match freadBytes f (p + h.typSize + 1) (leNat nl) with
        | none => .fail (some 3) (bs "Failed to read Name of DATA record")
        | some name => finishData (leNat ty) (cstr name)
            (sub64 (sub64 (sub64 dl h.typSize) 1) (leNat nl)) (p + h.typSize + 1 + leNat nl) := rfl

theorem readRecord_eq (h : Header) (f : Bytes) (pos : Nat) : readRecord h f pos =
    if pos = f.length then .done
    else
      match freadObj f pos h.lenSize with
      | none => .fail none (bs "Failed to read record length")
      | some lb =>
        match freadObj f (pos + h.lenSize) h.cmdSize with
        | none => .fail none (bs "Failed to read command")
        | some cb =>
          if leNat cb = 2 then readCd f (pos + h.lenSize + h.cmdSize)
            (sub64 (sub64 (leNat lb) h.lenSize) h.cmdSize)
          else if leNat cb = 3 then readData h f (pos + h.lenSize + h.cmdSize)
            (sub64 (sub64 (leNat lb) h.lenSize) h.cmdSize)
          else finishOther (leNat cb) (pos + h.lenSize + h.cmdSize)
            (sub64 (sub64 (leNat lb) h.lenSize) h.cmdSize) := rfl

theorem finishOther_ne_done (c p d : Nat) : finishOther c p d ≠ .done := by
  unfold finishOther
  cases fseekCur p d <;> simp

theorem finishData_ne_done (t : Nat) (n : Bytes) (s p : Nat) : finishData t n s p ≠ .done := by
  unfold finishData
  cases fseekCur p s <;> simp

theorem readCd_ne_done (f : Bytes) (p d : Nat) : readCd f p d ≠ .done := by
  unfold readCd
  cases freadBytes f p d <;> split <;> simp

theorem readData_ne_done (h : Header) (f : Bytes) (p d : Nat) : readData h f p d ≠ .done := by
  rw [readData_eq]
  cases freadObj f p h.typSize with
  | none => simp
  | some ty =>
    cases freadObj f (p + h.typSize) 1 with
    | none => simp
    | some nl =>
      cases hb : freadBytes f (p + h.typSize + 1) (leNat nl) with
      | none => simp [hb]
      | some name =>
        show (match freadBytes f (p + h.typSize + 1) (leNat nl) with
          | none => _
          | some name => _) ≠ _
        rw [hb]
        exact finishData_ne_done _ _ _ _

theorem readRecord_done {h : Header} {f : Bytes} {pos : Nat} (hr : readRecord h f pos = .done) :
    pos = f.length := by
  rw [readRecord_eq] at hr
  by_contra hne
  rw [if_neg hne] at hr
  cases h1 : freadObj f pos h.lenSize with
  | none => rw [h1] at hr; cases hr
  | some lb =>
    rw [h1] at hr
    replace hr : (match freadObj f (pos + h.lenSize) h.cmdSize with
        | none => _
        | some cb => _) = RecRead.done := hr
    cases h2 : freadObj f (pos + h.lenSize) h.cmdSize with
    | none => rw [h2] at hr; cases hr
    | some cb =>
      rw [h2] at hr
      replace hr : (if leNat cb = 2 then _ else _) = RecRead.done := hr
      split at hr
      · exact readCd_ne_done _ _ _ hr
      · split at hr
        · exact readData_ne_done _ _ _ _ hr
        · exact finishOther_ne_done _ _ _ hr

theorem readData_sane {h : Header} {f : Bytes} {p dl : Nat} {r : Rec} {next : Nat}
    (hdl : dl < u64 / 2)
    (hs : p + h.typSize + 1 ≤ f.length → h.typSize + 1 + fieldAt f (p + h.typSize) 1 ≤ dl)
    (hr : readData h f p dl = .rcd r next) :
    next = p + dl ∧ ∀ ty name size pos, r = .data ty name size pos → pos + size = next := by
  have hu := u64_half
  rw [readData_eq] at hr
  split at hr
  · simp at hr
  · split at hr
    · simp at hr
    · rename_i nl hnl
      obtain ⟨n1, n2, n3⟩ := freadObj_some hnl
      have hs' := hs n2
      rw [← n3] at hs'
      split at hr
      · simp at hr
      · rename_i name hname
        have hsz : sub64 (sub64 (sub64 dl h.typSize) 1) (leNat nl) =
            dl - h.typSize - 1 - leNat nl := by
          rw [sub64_eq (a := dl) (by omega) (by omega)]
          rw [sub64_eq (b := 1) (by omega) (by omega)]
          rw [sub64_eq (b := leNat nl) (by omega) (by omega)]
        rw [hsz] at hr
        unfold finishData at hr
        cases hf : fseekCur (p + h.typSize + 1 + leNat nl) (dl - h.typSize - 1 - leNat nl) with
        | none => rw [hf] at hr; simp at hr
        | some x =>
          rw [hf] at hr
          have hx := fseekCur_some (by omega) hf
          simp only [RecRead.rcd.injEq] at hr
          obtain ⟨r1, r2⟩ := hr
          refine ⟨by omega, ?_⟩
          intro ty name' size pos he
          rw [← r1] at he
          simp only [Rec.data.injEq] at he
          omega

/-- With sane lengths every record leads forward, and a variable ends where its record ends. -/
theorem readRecord_sane {h : Header} {f : Bytes} {pos : Nat} {r : Rec} {next : Nat}
    (hs : LengthsSane h f) (hre : Reaches h f pos) (hr : readRecord h f pos = .rcd r next) :
    pos < next ∧ pos < f.length ∧
      ∀ ty name size p, r = .data ty name size p → p + size = next := by
  have hu := u64_half
  rw [readRecord_eq] at hr
  split at hr
  · simp at hr
  · split at hr
    · simp at hr
    · rename_i lb hlb
      obtain ⟨l1, l2, l3⟩ := freadObj_some hlb
      split at hr
      · simp at hr
      · rename_i cb hcb
        obtain ⟨c1, c2, c3⟩ := freadObj_some hcb
        obtain ⟨s1, s2, s3⟩ := hs pos hre c2
        rw [← l3] at s1 s2 s3
        rw [← c3] at s3
        have hdl : sub64 (sub64 (leNat lb) h.lenSize) h.cmdSize =
            leNat lb - h.lenSize - h.cmdSize := by
          rw [sub64_eq (a := leNat lb) (by omega) (by omega)]
          rw [sub64_eq (b := h.cmdSize) (by omega) (by omega)]
        rw [hdl] at hr
        split at hr
        · unfold readCd at hr
          split at hr
          · split at hr
            · simp at hr
            · simp only [RecRead.rcd.injEq] at hr
              refine ⟨by omega, by omega, ?_⟩
              intro ty name size p he
              rw [← hr.1] at he; simp at he
          · simp at hr
        · split at hr
          · rename_i h3
            obtain ⟨d1, d2⟩ := readData_sane (by omega) (by
              intro hle
              have := s3 h3 hle
              omega) hr
            exact ⟨by omega, by omega, d2⟩
          · unfold finishOther at hr
            cases hf : fseekCur (pos + h.lenSize + h.cmdSize)
                (leNat lb - h.lenSize - h.cmdSize) with
            | none => rw [hf] at hr; simp at hr
            | some x =>
              rw [hf] at hr
              have hx := fseekCur_some (by omega) hf
              simp only [RecRead.rcd.injEq] at hr
              refine ⟨by omega, by omega, ?_⟩
              intro ty name size p he
              rw [← hr.1] at he; simp at he

theorem readRecord_behind {h : Header} {f : Bytes} {pos : Nat} (hp : f.length < pos) :
    ∃ c msg, readRecord h f pos = .fail c msg := by
  unfold readRecord
  rw [if_neg (by omega)]
  have : freadObj f pos h.lenSize = none := by
    unfold freadObj; split
    · rfl
    · rw [if_neg (by omega)]
  rw [this]
  exact ⟨_, _, rfl⟩

theorem applyRec_pos {fi : Nat} {s s' : PState} {r : Rec} {next : Nat}
    (hr : applyRec fi s r next = .ok s') : s'.pos = next := by
  cases r with
  | cd raw =>
    simp only [applyRec] at hr
    cases hc : changeDir s.curPath raw with
    | ok p =>
      obtain ⟨cur', t⟩ := p
      rw [hc] at hr
      simp only [Res.bind_ok] at hr
      cases t with
      | none => simp at hr; rw [← hr]
      | some path =>
        cases hd : dirStep s.dir (.cd path) with
        | ok d => simp only [hd, Res.bind_ok, Res.ok.injEq] at hr; rw [← hr]
        | err => simp [hd] at hr
        | ub => simp [hd] at hr
        | abort => simp [hd] at hr
    | err => rw [hc] at hr; simp at hr
    | ub => rw [hc] at hr; simp at hr
    | abort => rw [hc] at hr; simp at hr
  | data ty name size pos =>
    simp only [applyRec] at hr
    cases hd : dirStep s.dir (.data name ⟨ty, size, fi % 256, pos⟩) with
    | ok d => simp only [hd, Res.bind_ok, Res.ok.injEq] at hr; rw [← hr]
    | err => simp [hd] at hr
    | ub => simp [hd] at hr
    | abort => simp [hd] at hr
  | other c => simp [applyRec] at hr; rw [← hr]

theorem parseLoop_sane {h : Header} {f : Bytes} (hs : LengthsSane h f) (fi : Nat) (fuel : Nat) :
    ∀ s : PState, Reaches h f s.pos → f.length + 1 - s.pos < fuel →
      AllFiles (fun i => i.filePos + i.size ≤ s.pos) s.dir.kids →
      parseLoop h fi f fuel s ≠ .ok none ∧
      ∀ out, parseLoop h fi f fuel s = .ok (some out) → out.error = none →
        AllFiles (fun i => i.filePos + i.size ≤ f.length) out.kids := by
  induction fuel with
  | zero => intro s _ h; omega
  | succ n ih =>
    intro s hre hfu hall
    rw [parseLoop]
    cases hr : readRecord h f s.pos with
    | done =>
      refine ⟨by simp, ?_⟩
      intro out ho _
      have hpos : s.pos = f.length := by
        exact readRecord_done hr
      simp at ho
      rw [← ho]
      exact hpos ▸ hall
    | assertFail => simp
    | fail c msg =>
      simp only
      split
      · simp
      · refine ⟨by simp, ?_⟩
        intro out ho he
        simp at ho
        rw [← ho] at he; simp at he
    | rcd r next =>
      obtain ⟨a1, a2, a3⟩ := readRecord_sane hs hre hr
      simp only
      cases ha : applyRec fi s r next with
      | ok s' =>
        obtain ⟨b1, b2⟩ := applyRec_allFiles (Q := fun i => i.filePos + i.size ≤ next)
          (AllFiles.mono (fun i (hi : i.filePos + i.size ≤ s.pos) => by omega) hall)
          (fun ty name size pos he => by
            have := a3 ty name size pos he
            simp only; omega) ha
        simp only [Res.bind_ok]
        exact ih s' (by rw [b2]; exact .step hre hr) (by rw [b2]; omega) (by rw [b2]; exact b1)
      | err => simp
      | ub => simp
      | abort => simp

/-- C13, proved part: a file in which every record length covers its fixed parts is parsed in
at most as many steps as it has bytes (plus two), and every variable reported by a parse
without error lies completely inside of the file. Missing: files with shorter record
lengths, for which the property is false (the two witnesses below). -/
theorem c13_terminates_inside_partial (f : Bytes) (h : Header) (hh : readHeader f = .inl h)
    (hs : LengthsSane h f) (fi fuel : Nat) (hfuel : f.length + 2 ≤ fuel) :
    (∀ kids, parseFile fuel fi (some f) kids ≠ .ok none) ∧
    ∀ out, parseFile fuel fi (some f) [] = .ok (some out) → out.error = none →
      ∀ path info, getFile out.kids path = .ok (some info) →
        info.filePos + info.size ≤ f.length := by
  unfold parseFile
  simp only [hh]
  constructor
  · intro kids
    -- the first part does not depend on the directory: use the trivial predicate
    have : ∀ fuel (s : PState), Reaches h f s.pos → f.length + 1 - s.pos < fuel →
        parseLoop h fi f fuel s ≠ .ok none := by
      intro fuel
      induction fuel with
      | zero => intro s _ h; omega
      | succ n ih =>
        intro s hre hfu
        rw [parseLoop]
        cases hr : readRecord h f s.pos with
        | done => simp
        | assertFail => simp
        | fail c msg => simp only; split <;> simp
        | rcd r next =>
          obtain ⟨a1, a2, _⟩ := readRecord_sane hs hre hr
          simp only
          cases ha : applyRec fi s r next with
          | ok s' =>
            have b2 := applyRec_pos ha
            simp only [Res.bind_ok]
            exact ih s' (by rw [b2]; exact .step hre hr) (by rw [b2]; omega)
          | err => simp
          | ub => simp
          | abort => simp
    exact this fuel ⟨8, [SEP], ⟨kids, none⟩⟩ .start (by simp only; omega)
  · intro out ho he path info hg
    have := (parseLoop_sane hs fi fuel ⟨8, [SEP], ⟨[], none⟩⟩ .start (by simp only; omega)
      AllFiles.nil).2 out ho he
    exact this.getFile hg

/-- C13, witness: an unknown record whose length field is 0 makes `binout_open` loop forever
(the skip goes back to the start of the record). -/
theorem c13_zero_length_loops :
    let f : Bytes := [8, 1, 8, 1, 1, 1, 0, 0] ++ [0, 9, 7]
    ∀ fuel fi kids, parseFile fuel fi (some f) kids = .ok none := by
  intro f fuel fi kids
  have hh : readHeader f = .inl ⟨1, 1, 1⟩ := by decide +kernel
  have hr : readRecord ⟨1, 1, 1⟩ f 8 = .rcd (.other 9) 8 := by decide +kernel
  unfold parseFile
  simp only [hh]
  have key : ∀ s : PState, s.pos = 8 → parseLoop ⟨1, 1, 1⟩ fi f fuel s = .ok none := by
    induction fuel with
    | zero => intro s _; rfl
    | succ n ih =>
      intro s hs
      rw [c14_skip ⟨1, 1, 1⟩ fi f n s 9 8 (by rw [hs]; exact hr)]
      exact ih _ rfl
  exact key _ rfl

/-- C13, witness: a DATA record whose length does not cover its name is accepted without any
error and gives a variable of size 2^64 - 2 in a file of 18 bytes. -/
theorem c13_huge_variable :
    let f : Bytes := [8, 1, 8, 1, 1, 1, 0, 0] ++ [4, 2, 47, 97] ++ [4, 3, 1, 2, 2, 9]
    (match parseFile 10 0 (some f) [] with
      | .ok (some ⟨kids, none⟩) => getFile kids [47, 97, 47, 2, 9]
      | _ => .ub) = .ok (some ⟨1, u64 - 2, 0, 18⟩) := by
  decide +kernel

/-! ## C15 Change-directory semantics -/

/-- C15, proved part: after any sequence of CD records of the form LS-DYNA writes, a variable
is found under the path that path resolution gives, and only there. Missing: CD records to
the root and above it, repeated leading separators and `..` inside of absolute paths, where
the code deviates (witnesses below). -/
theorem c15_cd_resolution_partial (s : SrcFile) (cds : List Bytes) (ty : Nat)
    (name payload : Bytes) (hrs : s.rs = cds.map WRec.cd ++ [.data ty name payload])
    (h : GoodSet [s]) :
    ∃ n, ∀ fuel, n ≤ fuel → ∀ pattern, ∃ kids b,
      binoutOpen fuel pattern [(s.name, some s.content)] = .ok (some b) ∧ b.kids = kids ∧
      ∀ path : Bytes, path.head? = some SEP → 0 ∉ path → (∀ c ∈ path, c < 256) →
        ((∃ i, getFile kids path = .ok (some i)) ↔
          components path = cds.foldl cdTarget [] ++ [name]) := by
  obtain ⟨n, hn⟩ := open_good [s] h (by simp)
  refine ⟨n, fun fuel hf pattern => ?_⟩
  obtain ⟨kids, k1, k2⟩ := hn fuel hf pattern
  refine ⟨kids, _, k1, rfl, fun path habs h0 hb => ?_⟩
  obtain ⟨o, o1, o2, _⟩ := open_lookup [s] h k2 path habs h0 hb
  have hv : ∀ cur, varsOf cur (cds.map WRec.cd ++ [.data ty name payload]) =
      [(cds.foldl cdTarget cur ++ [name], ty, payload)] := by
    clear hrs
    induction cds with
    | nil => intro cur; rfl
    | cons p t ih => intro cur; simpa [varsOf] using ih _
  have hvars : allVars [s] = [(cds.foldl cdTarget [] ++ [name], ty, payload)] := by
    simp only [allVars, List.flatMap_cons, List.flatMap_nil, List.append_nil]
    rw [hrs]; exact hv []
  rw [hvars] at o2
  rw [o1]
  constructor
  · rintro ⟨i, hi⟩
    simp at hi; subst hi
    by_contra hne
    have : lastVar [(cds.foldl cdTarget [] ++ [name], ty, payload)] (components path) = none := by
      simp [lastVar]; exact fun e => hne e.symm
    rw [this] at o2; simp at o2
  · intro he
    cases o with
    | none =>
      have : lastVar [(cds.foldl cdTarget [] ++ [name], ty, payload)] (components path) =
          some (ty, payload) := by
        simp [lastVar, he]
      rw [this] at o2; simp at o2
    | some i => exact ⟨i, rfl⟩

/-- C15: the current folder and one more component fit if they have less than 1023 characters in total, otherwise an assertion fails,
and what fits stays inside of the 1024 bytes for the path. -/
theorem c15_path_limit {cur c : Bytes} (hc : cur ≠ []) (hb : ∀ x ∈ c, x < 256) (hu : c ≠ bs "..") :
    (cur.length + c.length < 1023 → ∃ r, applyComponent cur c = .ok r ∧ r.length + 1 ≤ 1024 ∧
      (r = cur ++ c ∨ r = cur ++ SEP :: c)) ∧
    (1023 ≤ cur.length + c.length → applyComponent cur c = .abort) := by
  have hz : ¬ pvStrcmp c (bs "..") = 0 := fun h => hu ((pvStrcmp_eq_zero c (bs "..") hb (by decide)).1 h)
  obtain ⟨l, hl⟩ : ∃ l, cur.getLast? = some l := ⟨_, List.getLast?_eq_some_getLast hc⟩
  constructor
  · intro h
    unfold applyComponent
    rw [if_neg hz, if_neg (by omega), hl]
    dsimp only
    split
    · exact ⟨_, rfl, by simp; omega, .inr rfl⟩
    · exact ⟨_, rfl, by simp; omega, .inl rfl⟩
  · intro h
    unfold applyComponent
    rw [if_neg hz, if_pos (by omega)]

/-- Not vacuous: a folder `/a` and a component. -/
example : applyComponent (bs "/a") (bs "b") = .ok (bs "/a/b") := by decide

/-- C15, witness: a CD to the root does not change the current folder. -/
theorem c15_cd_root_ignored :
    let w : Header := ⟨1, 1, 1⟩
    let f := encFile w [.cd (bs "/a"), .cd (bs "/"), .data 1 (bs "x") [7]]
    (match parseFile 10 0 (some f) [] with
      | .ok (some ⟨kids, none⟩) => getFile kids (bs "/a/x")
      | _ => .ub) = .ok (some ⟨1, 1, 0, 20⟩) := by
  decide +kernel

/-- C15, witness: `..` to the root fails an assertion, `..` at the root writes outside of
the path buffer, a doubled leading separator fails an assertion. -/
theorem c15_root_witnesses :
    let w : Header := ⟨1, 1, 1⟩
    let run := fun (rs : List WRec) => match parseFile 10 0 (some (encFile w rs)) [] with
      | .ok _ => 0
      | .err => 1
      | .ub => 2
      | .abort => 3
    run [.cd (bs "/a"), .cd (bs "..")] = 3 ∧ run [.cd (bs "..")] = 2 ∧
      run [.cd (bs "//a")] = 3 := by
  decide +kernel

/-! ## C16 Truncated and damaged files -/

theorem freadObj_take (f : Bytes) (n pos k : Nat) (hn : n ≤ f.length) :
    freadObj (f.take n) pos k = none ∨ freadObj (f.take n) pos k = freadObj f pos k := by
  unfold freadObj
  split
  · exact .inl rfl
  · split
    · rename_i h1 h2
      right
      rw [List.length_take] at h2
      rw [if_pos (by omega), List.drop_take, List.take_take]
      congr 2
      omega
    · exact .inl rfl

theorem freadBytes_take (f : Bytes) (n pos k : Nat) (hn : n ≤ f.length) :
    freadBytes (f.take n) pos k = none ∨ freadBytes (f.take n) pos k = freadBytes f pos k := by
  unfold freadBytes
  split
  · exact .inr rfl
  · split
    · rename_i h1 h2
      right
      rw [List.length_take] at h2
      rw [if_pos (by omega), List.drop_take, List.take_take]
      congr 2
      omega
    · exact .inl rfl

/-- Reading a record from a cut file fails or gives the same as the whole file. -/
theorem readRecord_take (h : Header) (f : Bytes) (n pos : Nat) (hn : n ≤ f.length)
    (hp : pos ≠ n) (hpf : pos ≠ f.length) :
    (∃ c msg, readRecord h (f.take n) pos = .fail c msg) ∨
      readRecord h (f.take n) pos = readRecord h f pos := by
  unfold readRecord
  rw [if_neg (by rw [List.length_take]; omega), if_neg hpf]
  rcases freadObj_take f n pos h.lenSize hn with e | e <;> rw [e]
  · exact .inl ⟨_, _, rfl⟩
  · cases freadObj f pos h.lenSize with
    | none => exact .inr rfl
    | some lb =>
      simp only
      rcases freadObj_take f n (pos + h.lenSize) h.cmdSize hn with e | e <;> rw [e]
      · exact .inl ⟨_, _, rfl⟩
      · cases freadObj f (pos + h.lenSize) h.cmdSize with
        | none => exact .inr rfl
        | some cb =>
          simp only
          split
          · unfold readCd
            split
            · rcases freadBytes_take f n (pos + h.lenSize + h.cmdSize)
                (sub64 (sub64 (leNat lb) h.lenSize) h.cmdSize) hn with e | e <;> rw [e]
              · exact .inl ⟨_, _, rfl⟩
              · exact .inr rfl
            · exact .inr rfl
          · split
            · unfold readData
              rcases freadObj_take f n (pos + h.lenSize + h.cmdSize) h.typSize hn with e | e <;>
                rw [e]
              · exact .inl ⟨_, _, rfl⟩
              · cases freadObj f (pos + h.lenSize + h.cmdSize) h.typSize with
                | none => exact .inr rfl
                | some ty =>
                  simp only
                  rcases freadObj_take f n (pos + h.lenSize + h.cmdSize + h.typSize) 1 hn with
                    e | e <;> rw [e]
                  · exact .inl ⟨_, _, rfl⟩
                  · cases freadObj f (pos + h.lenSize + h.cmdSize + h.typSize) 1 with
                    | none => exact .inr rfl
                    | some nl =>
                      simp only
                      rcases freadBytes_take f n
                        (pos + h.lenSize + h.cmdSize + h.typSize + 1) (leNat nl) hn with
                        e | e <;> rw [e]
                      · exact .inl ⟨_, _, rfl⟩
                      · exact .inr rfl
            · exact .inr rfl

theorem parseLoop_cut (w : Header) (hw : w.Ok) (fi : Nat) (f : Bytes) (hlen : f.length < u64 / 2)
    (n : Nat) (hn : n ≤ f.length) (rs : List WRec) : ∀ (pre : Bytes),
    (∀ r ∈ rs, r.Ok w) → f = pre ++ encRecs w rs → pre.length < n → n < f.length →
    (∀ k, n ≠ pre.length + (encRecs w (rs.take k)).length) →
    ∀ (fuel : Nat) (s : PState), s.pos = pre.length → ∀ out,
      parseLoop w fi (f.take n) fuel s = .ok (some out) → out.error ≠ none := by
  induction rs with
  | nil => intro pre _ hf h1 h2 _; rw [hf] at h2; simp [encRecs] at h2; omega
  | cons r rs ih =>
    intro pre hr hf h1 h2 hb fuel s hp out ho
    cases fuel with
    | zero => simp [parseLoop] at ho
    | succ fuel =>
      have hf' : f = pre ++ (encRec w r ++ encRecs w rs) := by rw [hf]; rfl
      have hrec := readRecord_enc w hw r (hr r (by simp)) pre (encRecs w rs) f hf' hlen
      rw [parseLoop, hp] at ho
      rcases readRecord_take w f n pre.length hn (by omega) (by omega) with ⟨c, msg, e⟩ | e
      · rw [e] at ho
        simp only at ho
        split at ho
        · simp at ho
        · simp at ho; rw [← ho]; simp
      · rw [e, hrec] at ho
        simp only at ho
        cases ha : applyRec fi s (r.event w pre.length) (pre.length + (encRec w r).length) with
        | ok s' =>
          rw [ha] at ho
          simp only [Res.bind_ok] at ho
          have hpos := applyRec_pos ha
          by_cases hcut : n < pre.length + (encRec w r).length
          · cases fuel with
            | zero => simp [parseLoop] at ho
            | succ m =>
              rw [parseLoop] at ho
              obtain ⟨c, msg, e2⟩ := readRecord_behind (h := w) (f := f.take n) (pos := s'.pos)
                (by rw [List.length_take, hpos]; omega)
              rw [e2] at ho
              simp only at ho
              split at ho
              · simp at ho
              · simp at ho; rw [← ho]; simp
          · have hne : n ≠ pre.length + (encRec w r).length := by
              have := hb 1
              simpa [encRecs] using this
            refine ih (pre ++ encRec w r) (fun x hx => hr x (by simp [hx])) (by rw [hf']; simp)
              (by simp; omega) h2 ?_ fuel s' (by rw [hpos]; simp) out ho
            intro k
            have := hb (k + 1)
            simp [encRecs] at this ⊢
            omega
        | err => rw [ha] at ho; simp at ho
        | ub => rw [ha] at ho; simp at ho
        | abort => rw [ha] at ho; simp at ho

/-- C16. A file cut anywhere except at a record boundary never parses without an error. -/
theorem c16_truncated (w : Header) (hw : w.Ok) (rs : List WRec) (hr : ∀ r ∈ rs, r.Ok w)
    (hlen : (encFile w rs).length < u64 / 2) (n : Nat) (hn : n < (encFile w rs).length)
    (hcut : ∀ k, n ≠ (encFile w (rs.take k)).length) (fuel fi : Nat) (kids : List Entry)
    (out : ParseOut)
    (ho : parseFile fuel fi (some ((encFile w rs).take n)) kids = .ok (some out)) :
    out.error ≠ none := by
  have h8 : (encHeader w).length = 8 := rfl
  unfold parseFile at ho
  simp only at ho
  by_cases hs : n < 8
  · have : ∃ msg, readHeader ((encFile w rs).take n) = .inr msg := by
      have hl : ((encFile w rs).take n).length < 8 := by rw [List.length_take]; omega
      generalize (encFile w rs).take n = g at hl
      unfold readHeader
      split
      · simp at hl; omega
      · exact ⟨_, rfl⟩
    obtain ⟨msg, hm⟩ := this
    rw [hm] at ho
    simp at ho; rw [← ho]; simp
  · have ht : (encFile w rs).take n = encHeader w ++ (encRecs w rs).take (n - 8) := by
      unfold encFile
      rw [List.take_append, h8, List.take_of_length_le (by omega)]
    have hh : readHeader ((encFile w rs).take n) = .inl w := by
      rw [ht]; exact readHeader_enc w hw _
    rw [hh] at ho
    simp only at ho
    refine parseLoop_cut w hw fi (encFile w rs) hlen n (by omega) rs (encHeader w) hr rfl ?_ hn ?_
      fuel _ h8.symm out ho
    · have := hcut 0
      simp [encFile, encRecs] at this
      omega
    · intro k
      have := hcut k
      simpa [encFile] using this

/-- C16, header: a file that is too short, has the wrong byte order or float format, or a
field wider than 8 bytes is reported and contributes nothing. -/
theorem c16_header_damage (f : Bytes)
    (h : f.length < 8 ∨ f[5]? ≠ some 1 ∨ f[6]? ≠ some 0 ∨ 8 < f.getD 1 0 ∨ 8 < f.getD 3 0 ∨
      8 < f.getD 4 0) (fuel fi : Nat) (kids : List Entry) :
    ∃ msg, parseFile fuel fi (some f) kids = .ok (some ⟨kids, some msg⟩) := by
  have : ∃ msg, readHeader f = .inr msg := by
    unfold readHeader
    split
    · rename_i hs ls os cs ts en ff u t
      simp at h
      by_cases h1 : en ≠ 1
      · exact ⟨_, by rw [if_pos h1]⟩
      rw [if_neg h1]
      by_cases h2 : ls > 8
      · exact ⟨_, by rw [if_pos h2]⟩
      rw [if_neg h2]
      by_cases h3 : cs > 8
      · exact ⟨_, by rw [if_pos h3]⟩
      rw [if_neg h3]
      by_cases h4 : ts > 8
      · exact ⟨_, by rw [if_pos h4]⟩
      rw [if_neg h4]
      by_cases h5 : ff ≠ 0
      · exact ⟨_, by rw [if_pos h5]⟩
      exfalso; omega
    · exact ⟨_, rfl⟩
  obtain ⟨msg, hm⟩ := this
  exact ⟨msg, by unfold parseFile; simp only [hm]⟩

/-! ## C17 Variables stay attached to their file -/

/-- C17, proved part: if all files of a set of at most 256 files are well formed, every
variable is associated with the content of the file that holds its (last) DATA record.
Missing: sets in which a file fails (witness below) and more than 256 files. -/
theorem c17_file_association_partial (files : List SrcFile) (h : GoodSet files)
    (hne : files ≠ []) :
    ∃ n, ∀ fuel, n ≤ fuel → ∀ pattern, ∃ kids,
      binoutOpen fuel pattern (files.map (fun s => (s.name, some s.content))) =
        .ok (some ⟨kids, files.map (fun s => some s.content), none⟩) ∧
      ∀ path : Bytes, path.head? = some SEP → 0 ∉ path → (∀ c ∈ path, c < 256) →
        match lastVar (allVars files) (components path) with
        | none => getFile kids path = .ok none
        | some (ty, payload) => ∃ i s, getFile kids path = .ok (some i) ∧
            files[i.fileIndex]? = some s ∧ i.varType = ty ∧ i.size = payload.length ∧
            (s.content.drop i.filePos).take i.size = payload := by
  obtain ⟨n, hn⟩ := open_good files h hne
  refine ⟨n, fun fuel hf pattern => ?_⟩
  obtain ⟨kids, k1, k2⟩ := hn fuel hf pattern
  refine ⟨kids, k1, fun path habs h0 hb => ?_⟩
  obtain ⟨o, o1, o2, o3⟩ := open_lookup files h k2 path habs h0 hb
  cases o with
  | none => simp at o2; rw [← o2]; exact o1
  | some i =>
    simp only [Option.map_some] at o2
    rw [← o2]
    obtain ⟨c, c1, c2⟩ := o3 i rfl
    rw [List.getElem?_map] at c1
    cases hs : files[i.fileIndex]? with
    | none => rw [hs] at c1; simp at c1
    | some s =>
      rw [hs] at c1; simp at c1
      have hd : (files.map SrcFile.content).getD i.fileIndex [] = s.content := by
        simp [List.getD, hs]
      refine ⟨i, s, o1, hs, rfl, ?_, ?_⟩
      · simp only [describe, hd]
        rw [List.length_take, List.length_drop, c1]; omega
      · simp only [describe, hd]

/-- C17, witness: the first of two files has an unsupported header, the second is fine.
`binout_open` reports the error, removes the first file from its array, but the variable of
the second file keeps the index 1, which is outside of the array: reading it is undefined
behaviour. -/
theorem c17_failed_file_breaks_others :
    let w : Header := ⟨1, 1, 1⟩
    let good := encFile w [.cd (bs "/a"), .data 1 (bs "x") [7]]
    let bad : Bytes := [8, 1, 8, 1, 1, 0, 0, 0]
    (match binoutOpen 10 (bs "b*") [(bs "b0", some bad), (bs "b1", some good)] with
      | .ok (some b) => (b.files.length, getFile b.kids (bs "/a/x"), binoutRead b (bs "/a/x") 1)
      | _ => (0, .ub, .ub)) = (1, .ok (some ⟨1, 1, 1, 17⟩), .ub) := by
  decide +kernel

/-! ## C21 Error texts -/

theorem openFiles_errors (fuel : Nat) (files : List (Bytes × Option Bytes)) : ∀ (i : Nat)
    (st st' : OpenState), openFiles fuel i files st = .ok (some st') →
    ∃ outs : List (Option Bytes), outs.length = files.length ∧
      st'.errors = st.errors ++ (files.zip outs).filterMap
        (fun x => x.2.map (fileError x.1.1)) ∧
      ∀ j : Nat, j < files.length → ∃ kids kids' : List Entry, ∃ name content,
        files[j]? = some (name, content) ∧
        parseFile fuel (i + j) content kids = .ok (some ⟨kids', (outs[j]?).getD none⟩) := by
  induction files with
  | nil =>
    intro i st st' h
    simp [openFiles] at h
    exact ⟨[], rfl, by simp [h], by simp⟩
  | cons x t ih =>
    obtain ⟨name, content⟩ := x
    intro i st st' h
    simp only [openFiles] at h
    cases hp : parseFile fuel i content st.kids with
    | ok o =>
      rw [hp] at h
      simp only [Res.bind_ok] at h
      cases o with
      | none => simp at h
      | some out =>
        simp only at h
        have key : ∀ st1 : OpenState, openFiles fuel (i + 1) t st1 = .ok (some st') →
            st1.errors = st.errors ++ (out.error.map (fileError name)).toList →
            ∃ outs : List (Option Bytes), outs.length = ((name, content) :: t).length ∧
              st'.errors = st.errors ++ (((name, content) :: t).zip outs).filterMap
                (fun x => x.2.map (fileError x.1.1)) ∧
              ∀ j : Nat, j < ((name, content) :: t).length → ∃ kids kids' : List Entry, ∃ n c,
                ((name, content) :: t)[j]? = some (n, c) ∧
                parseFile fuel (i + j) c kids = .ok (some ⟨kids', (outs[j]?).getD none⟩) := by
          intro st1 h1 h2
          obtain ⟨outs, a1, a2, a3⟩ := ih (i + 1) st1 st' h1
          refine ⟨out.error :: outs, by simp [a1], ?_, ?_⟩
          · rw [a2, h2]
            simp only [List.zip_cons_cons, List.filterMap_cons]
            cases out.error <;> simp
          · intro j hj
            cases j with
            | zero => exact ⟨st.kids, out.kids, name, content, rfl, by simpa using hp⟩
            | succ j =>
              obtain ⟨k, k', n, c, e1, e2⟩ := a3 j (by simpa using hj)
              refine ⟨k, k', n, c, by simpa using e1, ?_⟩
              rw [show i + (j + 1) = i + 1 + j by omega]
              simpa using e2
        cases he : out.error with
        | none =>
          rw [he] at h
          exact (he ▸ key) _ h (by simp)
        | some msg =>
          rw [he] at h
          exact (he ▸ key) _ h (by simp)
    | err => rw [hp] at h; simp at h
    | ub => rw [hp] at h; simp at h
    | abort => rw [hp] at h; simp at h

theorem joinErrors_eq (es : List Bytes) :
    joinErrors es = if es = [] then none else some (List.intercalate [10] es) := by
  induction es with
  | nil => rfl
  | cons e t ih =>
    cases t with
    | nil => simp [joinErrors, List.intercalate, List.intersperse]
    | cons e' t' =>
      rw [joinErrors]
      · rw [ih]; simp [List.intercalate, List.intersperse]
      · simp

/-- C21. The error string after opening is absent exactly if every file parsed without an
error; otherwise it consists of the texts "file name: message" of the failing files, in
order, separated by newlines. -/
theorem c21_error_string (fuel : Nat) (pattern : Bytes) (files : List (Bytes × Option Bytes))
    (hne : files ≠ []) (b : BinFile) (h : binoutOpen fuel pattern files = .ok (some b)) :
    ∃ outs : List (Option Bytes), outs.length = files.length ∧
      (∀ j, j < files.length → ∃ kids kids' : List Entry, ∃ name content,
        files[j]? = some (name, content) ∧
        parseFile fuel j content kids = .ok (some ⟨kids', (outs[j]?).getD none⟩)) ∧
      (b.error = none ↔ ∀ o ∈ outs, o = none) ∧
      ∀ text, b.error = some text → text = List.intercalate [10]
        ((files.zip outs).filterMap (fun x => x.2.map (fun msg => x.1.1 ++ bs ": " ++ msg))) := by
  unfold binoutOpen at h
  rw [if_neg hne] at h
  cases ho : openFiles fuel 0 files {} with
  | ok o =>
    rw [ho] at h
    simp only [Res.bind_ok] at h
    cases o with
    | none => simp at h
    | some st =>
      simp at h
      obtain ⟨outs, a1, a2, a3⟩ := openFiles_errors fuel files 0 {} st ho
      refine ⟨outs, a1, fun j hj => by simpa using a3 j hj, ?_, ?_⟩
      · rw [← h]
        simp only [joinErrors_eq]
        simp only [List.nil_append] at a2
        constructor
        · intro he o hom
          split at he
          · rename_i hnil
            rw [a2, List.filterMap_eq_nil_iff] at hnil
            obtain ⟨j, hj, hjo⟩ := List.getElem_of_mem hom
            have hm : (files[j]'(by omega), outs[j]) ∈ files.zip outs := by
              have : (files.zip outs)[j]'(by simp; omega) = (files[j]'(by omega), outs[j]) := by simp
              rw [← this]; exact List.getElem_mem _
            have := hnil _ hm
            simpa [hjo] using this
          · simp at he
        · intro hall
          rw [if_pos]
          rw [a2, List.filterMap_eq_nil_iff]
          intro x hx
          have := hall x.2 (List.of_mem_zip hx).2
          simp [this]
      · intro text ht
        rw [← h] at ht
        simp only [joinErrors_eq] at ht
        split at ht
        · simp at ht
        · simp at ht
          rw [← ht, a2]; rfl
  | err => rw [ho] at h; simp at h
  | ub => rw [ho] at h; simp at h
  | abort => rw [ho] at h; simp at h

/-- C21 for a pattern that matches nothing. -/
theorem c21_no_files (fuel : Nat) (pattern : Bytes) :
    binoutOpen fuel pattern [] =
      .ok (some ⟨[], [], some (pattern ++ bs ": " ++ bs "No files have been found")⟩) := rfl

/-! ## Concrete cases that meet the hypotheses -/

def sampleFile : SrcFile where
  name := bs "binout0000"
  w := ⟨8, 8, 1⟩
  rs := [.other 5 [1, 2, 3], .cd (bs "/nodout/metadata"), .data 4 (bs "ids") [1, 0, 0, 0, 0, 0, 0, 0],
    .cd (bs "../d000001"), .data 9 (bs "x") [1, 2, 3, 4], .cd (bs "/nodout/d000002"),
    .other 1 [], .data 9 (bs "x") [5, 6, 7, 8]]

theorem sampleFile_ok : sampleFile.Ok where
  widths := by unfold Header.Ok; decide +kernel
  recs := by
    intro r hr
    simp only [sampleFile, List.mem_cons, List.not_mem_nil, or_false] at hr
    rcases hr with rfl | rfl | rfl | rfl | rfl | rfl | rfl | rfl <;>
      (refine ⟨by decide +kernel, by decide +kernel, ?_⟩; simp only; decide +kernel)
  size := by decide +kernel
  cds := by
    simp only [sampleFile, cdsOk]
    decide +kernel
  starts := by simp [sampleFile, startsCd]
  ascii := by
    intro r hr
    simp only [sampleFile, List.mem_cons, List.not_mem_nil, or_false] at hr
    rcases hr with rfl | rfl | rfl | rfl | rfl | rfl | rfl | rfl <;>
      simp only [WRec.isAscii] <;> decide +kernel

theorem sampleFile_good : GoodSet [sampleFile] where
  ok := by intro s hs; simp at hs; subst hs; exact sampleFile_ok
  few := by simp
  noClash := by decide +kernel

/-- The round trip and the other theorems about well formed files apply to it. -/
example : ∃ n, ∀ fuel, n ≤ fuel → ∀ pattern, ∃ kids,
    binoutOpen fuel pattern [(sampleFile.name, some sampleFile.content)] =
      .ok (some ⟨kids, [some sampleFile.content], none⟩) := by
  obtain ⟨n, hn⟩ := c12_round_trip sampleFile sampleFile_good
  refine ⟨n, fun fuel hf pattern => ?_⟩
  obtain ⟨kids, h, _⟩ := hn fuel hf pattern
  exact ⟨kids, h⟩

example : lastVar (varsOf [] sampleFile.rs) [bs "nodout", bs "d000001", bs "x"] =
    some (9, [1, 2, 3, 4]) := by decide +kernel

/-- The cut theorem applies to the sample file cut inside of its last payload. -/
example (out : ParseOut) (fuel : Nat)
    (h : parseFile fuel 0 (some (sampleFile.content.take (sampleFile.content.length - 1))) [] =
      .ok (some out)) : out.error ≠ none := by
  refine c16_truncated sampleFile.w sampleFile_ok.widths sampleFile.rs sampleFile_ok.recs
    sampleFile_ok.size _ (by decide +kernel) ?_ fuel 0 [] out h
  intro k
  by_cases hk : k < 8
  · have : ∀ k, k < 8 → sampleFile.content.length - 1 ≠
        (encFile sampleFile.w (sampleFile.rs.take k)).length := by decide +kernel
    exact this k hk
  · rw [List.take_of_length_le (by simp [sampleFile]; omega)]
    decide +kernel

/-- A file with sane lengths. -/
example : LengthsSane ⟨1, 1, 1⟩ (encFile ⟨1, 1, 1⟩ [.cd (bs "/a"), .data 1 (bs "x") [7]]) := by
  have hall : ∀ pos, Reaches ⟨1, 1, 1⟩ (encFile ⟨1, 1, 1⟩ [.cd (bs "/a"), .data 1 (bs "x") [7]]) pos →
      pos = 8 ∨ pos = 12 ∨ pos = 18 := by
    intro pos hp
    induction hp with
    | start => exact .inl rfl
    | step h1 h2 ih =>
      rcases ih with rfl | rfl | rfl
      · rw [show readRecord ⟨1, 1, 1⟩ (encFile ⟨1, 1, 1⟩ [.cd (bs "/a"), .data 1 (bs "x") [7]]) 8 =
          .rcd (.cd (bs "/a")) 12 by decide +kernel] at h2
        simp at h2; omega
      · rw [show readRecord ⟨1, 1, 1⟩ (encFile ⟨1, 1, 1⟩ [.cd (bs "/a"), .data 1 (bs "x") [7]]) 12 =
          .rcd (.data 1 (bs "x") 1 17) 18 by decide +kernel] at h2
        simp at h2; omega
      · rw [show readRecord ⟨1, 1, 1⟩ (encFile ⟨1, 1, 1⟩ [.cd (bs "/a"), .data 1 (bs "x") [7]]) 18 =
          .done by decide +kernel] at h2
        simp at h2
  intro pos hp hle
  rcases hall pos hp with rfl | rfl | rfl
  · decide +kernel
  · decide +kernel
  · exact absurd hle (by decide +kernel)

end Dyna
