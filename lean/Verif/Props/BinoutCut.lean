import Verif.Props.Binout
/-!
# Cut files are reported, not fatal (C16)

`c16_truncated` says that a cut file never parses without an error. Here: the program does not
abort on it either, whatever the cut position is; and the one damage that does abort it is
described.
-/

namespace Dyna

theorem readCd_fail {f : Bytes} {p d : Nat} {c : Option Nat} {msg : Bytes}
    (h : readCd f p d = .fail c msg) : c = some 2 := by
  unfold readCd at h
  split at h
  · cases hb : freadBytes f p d with
    | none => rw [hb] at h; simp only [RecRead.fail.injEq] at h; exact h.1.symm
    | some raw => rw [hb] at h; simp at h
  · simp at h

theorem finishOther_fail {cmd p d : Nat} {c : Option Nat} {msg : Bytes}
    (h : finishOther cmd p d = .fail c msg) : c = some cmd := by
  unfold finishOther at h
  cases hb : fseekCur p d with
  | none => rw [hb] at h; simp only [RecRead.fail.injEq] at h; exact h.1.symm
  | some n => rw [hb] at h; simp at h

theorem finishData_cases (t : Nat) (n : Bytes) (s p : Nat) :
    (∃ msg, finishData t n s p = .fail (some 3) msg) ∨
      ∃ ty name size q next, finishData t n s p = .rcd (.data ty name size q) next := by
  unfold finishData
  cases fseekCur p s with
  | none => exact .inl ⟨_, rfl⟩
  | some n => exact .inr ⟨_, _, _, _, _, rfl⟩

/-- A DATA record fails with its command or is a DATA record. -/
theorem readData_cases (h : Header) (f : Bytes) (p d : Nat) :
    (∃ msg, readData h f p d = .fail (some 3) msg) ∨
      ∃ ty name size q next, readData h f p d = .rcd (.data ty name size q) next := by
  cases h1 : freadObj f p h.typSize with
  | none => exact .inl ⟨bs "Failed to read TYPEID of DATA record", by rw [readData_eq, h1]⟩
  | some ty =>
    cases h2 : freadObj f (p + h.typSize) 1 with
    | none =>
      exact .inl ⟨bs "Failed to read Name length of DATA record", by rw [readData_eq, h1]; simp only [h2]⟩
    | some nl =>
      cases h3 : freadBytes f (p + h.typSize + 1) (leNat nl) with
      | none =>
        exact .inl ⟨bs "Failed to read Name of DATA record", by
          rw [readData_eq, h1]; simp only [h2, h3]⟩
      | some name =>
        have e : readData h f p d = finishData (leNat ty) (cstr name)
            (sub64 (sub64 (sub64 d h.typSize) 1) (leNat nl)) (p + h.typSize + 1 + leNat nl) := by
          rw [readData_eq, h1]; simp only [h2, h3]
        rw [e]
        exact finishData_cases _ _ _ _

/-- The two cases of a record whose length and command can be read. -/
theorem readRecord_cases {h : Header} {f : Bytes} {pos : Nat} {lb cb : Bytes}
    (hp : pos ≠ f.length) (h1 : freadObj f pos h.lenSize = some lb)
    (h2 : freadObj f (pos + h.lenSize) h.cmdSize = some cb) : ∃ p d, readRecord h f pos =
      if leNat cb = 2 then readCd f p d else if leNat cb = 3 then readData h f p d
        else finishOther (leNat cb) p d := by
  refine ⟨pos + h.lenSize + h.cmdSize, sub64 (sub64 (leNat lb) h.lenSize) h.cmdSize, ?_⟩
  rw [readRecord_eq, if_neg hp, h1]
  show (match freadObj f (pos + h.lenSize) h.cmdSize with
        | none => _
        | some cb => _) = _
  rw [h2]

/-- A read that fails inside of a DATA record has seen the command 3. -/
theorem readRecord_fail_data {h : Header} {f : Bytes} {pos : Nat} {msg : Bytes}
    (hf : readRecord h f pos = .fail (some 3) msg) :
    ∃ cb, freadObj f (pos + h.lenSize) h.cmdSize = some cb ∧ leNat cb = 3 := by
  by_cases hp : pos = f.length
  · rw [readRecord_eq, if_pos hp] at hf; simp at hf
  cases h1 : freadObj f pos h.lenSize with
  | none => rw [readRecord_eq, if_neg hp, h1] at hf; simp at hf
  | some lb =>
    cases h2 : freadObj f (pos + h.lenSize) h.cmdSize with
    | none =>
      rw [readRecord_eq, if_neg hp, h1] at hf
      replace hf : (match freadObj f (pos + h.lenSize) h.cmdSize with
        | none => _
        | some cb => _) = RecRead.fail (some 3) msg := hf
      rw [h2] at hf; simp at hf
    | some cb =>
      obtain ⟨p, d, e⟩ := readRecord_cases hp h1 h2
      rw [e] at hf
      refine ⟨cb, rfl, ?_⟩
      split at hf
      · have := readCd_fail hf; simp at this
      · split at hf
        · assumption
        · have := finishOther_fail hf
          simp only [Option.some.injEq] at this
          exact this.symm

/-- If the command is 3, a complete record is a DATA record. -/
theorem readRecord_cmd_data {h : Header} {f : Bytes} {pos : Nat} {cb : Bytes} {r : Rec} {next : Nat}
    (hc : freadObj f (pos + h.lenSize) h.cmdSize = some cb) (h3 : leNat cb = 3)
    (hr : readRecord h f pos = .rcd r next) : ∃ ty name size p, r = .data ty name size p := by
  by_cases hp : pos = f.length
  · rw [readRecord_eq, if_pos hp] at hr; simp at hr
  cases h1 : freadObj f pos h.lenSize with
  | none => rw [readRecord_eq, if_neg hp, h1] at hr; simp at hr
  | some lb =>
    obtain ⟨p, d, e⟩ := readRecord_cases hp h1 hc
    rw [e, if_neg (by omega), if_pos h3] at hr
    rcases readData_cases h f p d with ⟨msg, e2⟩ | ⟨ty, name, size, q, n, e2⟩
    · rw [e2] at hr; simp at hr
    · rw [e2] at hr
      simp only [RecRead.rcd.injEq] at hr
      exact ⟨_, _, _, _, hr.1.symm⟩

/-- More iterations do not change a finished loop. -/
theorem parseLoop_mono (w : Header) (fi : Nat) (f : Bytes) (fuel : Nat) :
    ∀ (s : PState) (out : ParseOut), parseLoop w fi f fuel s = .ok (some out) →
      ∀ k, parseLoop w fi f (fuel + k) s = .ok (some out) := by
  induction fuel with
  | zero => intro s out h; simp [parseLoop] at h
  | succ fuel ih =>
    intro s out h k
    rw [show fuel + 1 + k = (fuel + k) + 1 by omega]
    rw [parseLoop] at h ⊢
    cases hr : readRecord w f s.pos with
    | done => rw [hr] at h; exact h
    | assertFail => rw [hr] at h; cases h
    | fail c m => rw [hr] at h; exact h
    | rcd r next =>
      rw [hr] at h
      simp only at h ⊢
      cases ha : applyRec fi s r next with
      | ok s' => rw [ha] at h; simp only [Res.bind_ok] at h ⊢; exact ih _ _ h k
      | err => rw [ha] at h; cases h
      | ub => rw [ha] at h; cases h
      | abort => rw [ha] at h; cases h

/-- The loop over the records of a cut file ends with an error. -/
theorem parseLoop_cut_reports (w : Header) (hw : w.Ok) (fi : Nat) (f : Bytes)
    (hfi : fi < 256) (hlen : f.length < u64 / 2) (n : Nat) (rs : List WRec) :
    ∀ (pre : Bytes), (∀ r ∈ rs, r.Ok w) → f = pre ++ encRecs w rs → pre.length < n → n < f.length →
    (∀ k, n ≠ pre.length + (encRecs w (rs.take k)).length) →
    ∀ (cl : List Bytes) (m k : Nat) (s : PState), s.pos = pre.length → PathInv s.curPath cl m →
      cdsOk cl m rs → (∃ d, dirRun s.dir (fileOps w fi pre.length cl rs) = .ok d) →
      ∃ kids msg, parseLoop w fi (f.take n) (rs.length + 1 + k) s =
        .ok (some ⟨kids, some msg⟩) := by
  induction rs with
  | nil => intro pre _ hf h1 h2 _; rw [hf] at h2; simp [encRecs] at h2; omega
  | cons r rs ih =>
    intro pre hr hf h1 h2 hb cl m k s hp hi hcds hrun
    rw [show (r :: rs).length + 1 + k = (rs.length + 1 + k) + 1 by simp; omega]
    have hf' : f = pre ++ (encRec w r ++ encRecs w rs) := by rw [hf]; rfl
    have hrec := readRecord_enc w hw r (hr r (by simp)) pre (encRecs w rs) f hf' hlen
    have hl2 : (pre ++ encRec w r).length = pre.length + (encRec w r).length := by simp
    rw [parseLoop, hp]
    -- a DATA record needs a current folder
    have hcur : ∀ ty name pl, r = .data ty name pl → s.dir.cur ≠ none := by
      intro ty name pl hd h0
      subst hd
      obtain ⟨d, hd⟩ := hrun
      simp only [fileOps, dirRun, dirStep, h0] at hd
      exact absurd hd (by intro h; cases h)
    rcases readRecord_take w f n pre.length (by omega) (by omega) (by omega) with
      ⟨c, msg, e⟩ | e
    · rw [e]
      simp only
      rw [if_neg]
      · exact ⟨_, _, rfl⟩
      · rintro ⟨rfl, h0⟩
        obtain ⟨cb, hcb, h3⟩ := readRecord_fail_data e
        have hcb' : freadObj f (pre.length + w.lenSize) w.cmdSize = some cb := by
          rcases freadObj_take f n (pre.length + w.lenSize) w.cmdSize (by omega) with e1 | e1
          · rw [e1] at hcb; cases hcb
          · rw [← e1]; exact hcb
        obtain ⟨ty, name, size, p, hd⟩ := readRecord_cmd_data hcb' h3 hrec
        cases r with
        | cd p => simp [WRec.event] at hd
        | other c p => simp [WRec.event] at hd
        | data ty name pl => exact hcur _ _ _ rfl h0
    · rw [e, hrec]
      simp only
      -- the effect of the record
      have happ : ∃ s' cl' m', applyRec fi s (r.event w pre.length)
            (pre.length + (encRec w r).length) = .ok s' ∧
          s'.pos = (pre ++ encRec w r).length ∧ PathInv s'.curPath cl' m' ∧ cdsOk cl' m' rs ∧
          ∃ d, dirRun s'.dir (fileOps w fi (pre ++ encRec w r).length cl' rs) = .ok d := by
        obtain ⟨d, hd⟩ := hrun
        cases r with
        | cd p =>
          obtain ⟨c1, c2, c3⟩ := hcds
          obtain ⟨cur', e1, i1⟩ := changeDir_spec hi p c1 c2
          simp only [fileOps, dirRun] at hd
          cases hs : dirStep s.dir (.cd (cdTarget cl p)) with
          | ok d' =>
            rw [hs] at hd
            refine ⟨⟨pre.length + (encRec w (.cd p)).length, cur', d'⟩, cdTarget cl p, _, ?_, hl2.symm,
              i1, c3, d, ?_⟩
            · simp only [WRec.event, applyRec]
              rw [e1]; simp only [Res.bind_ok]; rw [hs]; rfl
            · rw [hl2]; exact hd
          | err => rw [hs] at hd; cases hd
          | ub => rw [hs] at hd; cases hd
          | abort => rw [hs] at hd; cases hd
        | data ty name pl =>
          have hpos : pre.length + w.lenSize + w.cmdSize + w.typSize + 1 + name.length =
              pre.length + (encRec w (.data ty name pl)).length - pl.length := by
            rw [encRec_length]; simp [encBody, leBytes_length]; omega
          simp only [fileOps, dirRun] at hd
          cases hs : dirStep s.dir (.data name ⟨ty, pl.length, fi,
              pre.length + (encRec w (.data ty name pl)).length - pl.length⟩) with
          | ok d' =>
            rw [hs] at hd
            refine ⟨⟨pre.length + (encRec w (.data ty name pl)).length, s.curPath, d'⟩, cl, m, ?_,
              hl2.symm, hi, hcds, d, ?_⟩
            · simp only [WRec.event, applyRec]
              rw [hpos, Nat.mod_eq_of_lt hfi, hs]; rfl
            · rw [hl2]; exact hd
          | err => rw [hs] at hd; cases hd
          | ub => rw [hs] at hd; cases hd
          | abort => rw [hs] at hd; cases hd
        | other c pl =>
          simp only [fileOps] at hd
          refine ⟨⟨pre.length + (encRec w (.other c pl)).length, s.curPath, s.dir⟩, cl, m, rfl,
            hl2.symm, hi, hcds, d, ?_⟩
          rw [hl2]; exact hd
      obtain ⟨s', cl', m', e1, hp', hi', hc', hrun'⟩ := happ
      rw [e1]
      simp only [Res.bind_ok]
      by_cases hcut : n < pre.length + (encRec w r).length
      · rw [show rs.length + 1 + k = (rs.length + k) + 1 by omega, parseLoop]
        have hbeh : readRecord w (f.take n) s'.pos =
            .fail none (bs "Failed to read record length") := by
          unfold readRecord
          rw [if_neg (by rw [List.length_take, hp', hl2]; omega)]
          have : freadObj (f.take n) s'.pos w.lenSize = none := by
            unfold freadObj; split
            · rfl
            · rw [if_neg (by rw [List.length_take, hp', hl2]; omega)]
          rw [this]
        rw [hbeh]
        exact ⟨_, _, rfl⟩
      · have hne : n ≠ pre.length + (encRec w r).length := by
          have := hb 1
          simpa [encRecs] using this
        refine ih (pre ++ encRec w r) (fun x hx => hr x (by simp [hx])) (by rw [hf']; simp)
          (by simp; omega) h2 ?_ cl' m' k s' hp' hi' hc' hrun'
        intro j
        have := hb (j + 1)
        simp [encRecs] at this ⊢
        omega

/-- C16. Opening a file that was cut anywhere but at a record boundary succeeds as a call and
reports an error that names the file: the program neither aborts nor loops. -/
theorem c16_cut_is_reported (s : SrcFile) (h : GoodSet [s]) (n : Nat) (hn : n < s.content.length)
    (hcut : ∀ k, n ≠ (encFile s.w (s.rs.take k)).length) (pattern : Bytes) :
    ∃ kids msg, ∀ fuel, s.rs.length + 1 ≤ fuel →
      binoutOpen fuel pattern [(s.name, some (s.content.take n))] =
        .ok (some ⟨kids, [], some (s.name ++ bs ": " ++ msg)⟩) := by
  have hs := h.ok s (by simp)
  have key : ∃ kids msg, ∀ fuel, s.rs.length + 1 ≤ fuel →
      parseFile fuel 0 (some (s.content.take n)) [] = .ok (some ⟨kids, some msg⟩) := by
    have h8 : (encHeader s.w).length = 8 := rfl
    by_cases h0 : n < 8
    · have : ∃ msg, readHeader (s.content.take n) = .inr msg := by
        have hl : (s.content.take n).length < 8 := by rw [List.length_take]; omega
        generalize s.content.take n = g at hl
        unfold readHeader
        split
        · simp at hl; omega
        · exact ⟨_, rfl⟩
      obtain ⟨msg, hm⟩ := this
      exact ⟨[], msg, fun fuel _ => by unfold parseFile; simp only [hm]⟩
    · have ht : s.content.take n = encHeader s.w ++ (encRecs s.w s.rs).take (n - 8) := by
        unfold SrcFile.content encFile
        rw [List.take_append, h8, List.take_of_length_le (by omega)]
      have hh : readHeader (s.content.take n) = .inl s.w := by
        rw [ht]; exact readHeader_enc s.w hs.widths _
      have hrun : ∃ d, dirRun ⟨[], none⟩ (fileOps s.w 0 8 [] s.rs) = .ok d := by
        obtain ⟨m, hm⟩ := c12_round_trip s h
        obtain ⟨kids, hk, _⟩ := hm (m + s.rs.length + 1) (by omega) pattern
        have hp := parseFile_enc s hs 0 (by omega) [] (m + s.rs.length + 1) (by omega)
        cases hd : dirRun ⟨[], none⟩ (fileOps s.w 0 8 [] s.rs) with
        | ok d => exact ⟨d, rfl⟩
        | err =>
          rw [hd] at hp
          unfold binoutOpen openFiles at hk
          simp only [List.cons_ne_nil, if_false] at hk
          rw [hp] at hk
          cases hk
        | ub =>
          rw [hd] at hp
          unfold binoutOpen openFiles at hk
          simp only [List.cons_ne_nil, if_false] at hk
          rw [hp] at hk
          cases hk
        | abort =>
          rw [hd] at hp
          unfold binoutOpen openFiles at hk
          simp only [List.cons_ne_nil, if_false] at hk
          rw [hp] at hk
          cases hk
      have main := fun k => parseLoop_cut_reports s.w hs.widths 0 s.content (by omega) hs.size n s.rs
        (encHeader s.w) hs.recs rfl (by
          have := hcut 0
          simp [encFile, encRecs] at this
          omega) hn (by
          intro k
          have := hcut k
          simpa [encFile] using this) [] 1 k ⟨8, [SEP], ⟨[], none⟩⟩ rfl pathInv_root hs.cds hrun
      obtain ⟨kids, msg, e0⟩ := main 0
      refine ⟨kids, msg, fun fuel hf => ?_⟩
      obtain ⟨k, rfl⟩ : ∃ k, fuel = s.rs.length + 1 + k := ⟨fuel - s.rs.length - 1, by omega⟩
      unfold parseFile
      simp only [hh]
      have hmono := parseLoop_mono s.w 0 (s.content.take n) (s.rs.length + 1) ⟨8, [SEP], ⟨[], none⟩⟩
        _ e0 k
      exact hmono
  obtain ⟨kids, msg, hk⟩ := key
  refine ⟨kids, msg, fun fuel hf => ?_⟩
  unfold binoutOpen openFiles
  simp only [List.cons_ne_nil, if_false]
  rw [hk fuel hf]
  simp [openFiles, cleanUp, cleanUpLoop, joinErrors, fileError]

/-- C16, the damage that is fatal: if the first record of a file is a DATA record, whatever
comes behind its command, the assertion on the current folder ends the program. -/
theorem c16_data_before_cd_aborts (f : Bytes) (h : Header) (hh : readHeader f = .inl h)
    (hl : 0 < h.lenSize) (hc : 0 < h.cmdSize) (hlen : 8 + h.lenSize + h.cmdSize ≤ f.length)
    (hcmd : fieldAt f (8 + h.lenSize) h.cmdSize = 3) (fuel fi : Nat) (kids : List Entry) :
    parseFile (fuel + 1) fi (some f) kids = .abort := by
  unfold parseFile
  simp only [hh]
  have hrr : (∃ msg, readRecord h f 8 = .fail (some 3) msg) ∨
      ∃ ty name size p next, readRecord h f 8 = .rcd (.data ty name size p) next := by
    have e1 : freadObj f 8 h.lenSize = some ((f.drop 8).take h.lenSize) := by
      unfold freadObj; rw [if_neg (by omega), if_pos (by omega)]
    have e2 : freadObj f (8 + h.lenSize) h.cmdSize =
        some ((f.drop (8 + h.lenSize)).take h.cmdSize) := by
      unfold freadObj; rw [if_neg (by omega), if_pos (by omega)]
    obtain ⟨p, d, e⟩ := readRecord_cases (pos := 8) (by omega) e1 e2
    unfold fieldAt at hcmd
    rw [e, hcmd, if_neg (by omega), if_pos rfl]
    exact readData_cases h f p d
  rw [parseLoop]
  rcases hrr with ⟨msg, e⟩ | ⟨ty, name, size, p, next, e⟩
  · simp only [e]; simp
  · simp only [e]; rfl

/-- The sample file cut in the middle of its last payload. -/
example : ∃ kids msg, ∀ fuel, 9 ≤ fuel → binoutOpen fuel (bs "binout*")
    [(bs "binout0000", some (sampleFile.content.take (sampleFile.content.length - 1)))] =
      .ok (some ⟨kids, [], some (bs "binout0000" ++ bs ": " ++ msg)⟩) := by
  refine c16_cut_is_reported sampleFile sampleFile_good _ (by decide +kernel) ?_ _
  intro k
  by_cases hk : k < 8
  · have : ∀ k, k < 8 → sampleFile.content.length - 1 ≠
        (encFile sampleFile.w (sampleFile.rs.take k)).length := by decide +kernel
    exact this k hk
  · rw [List.take_of_length_le (by simp [sampleFile]; omega)]
    decide +kernel

/-- A file whose only record is a DATA record. -/
example : parseFile 1 0 (some (encFile ⟨1, 1, 1⟩ [.data 1 (bs "x") [7]])) [] = .abort :=
  c16_data_before_cd_aborts _ ⟨1, 1, 1⟩ rfl (by decide) (by decide) (by decide +kernel)
    (by decide +kernel) 0 0 []

end Dyna
