import Verif.D3PlotIds
import Verif.Props.D3Elements
import Verif.Props.D3Accept
/-!
# Title, run time and ids (C67)
-/

namespace Dyna.D3

/-- Where the ids of an opened database are. -/
theorem openPlot_ids {files : List Bytes} {plot : Plot} (h : openPlot files = .ok plot)
    (hal : Aligned plot.buf) (hsize : plot.buf.bytes.length < 2 ^ 63) (hs : ∀ k, wordAt plot.buf k < 2 ^ 32)
    (h8 : 0 ≤ plot.cda.raw.nel8) (hn : plot.cda.raw.narbs ≠ 0) {k : Nat}
    (hk : k = 64 + plot.cda.raw.extra + partWords plot.cda.ext + geoLen plot.cda) :
    IdsOk plot.buf plot.cda k ∧ k + plot.cda.raw.narbs < words plot.buf ∧ plot.numrbs = idNumrbs plot.buf k ∧
      ∃ d, SameIds (idPtrs plot.buf plot.cda k d) plot.ptrs ∧ d.partIds = 0 := by
  obtain ⟨hb, hbody, -, -, hpk⟩ := openPlot_body h
  obtain ⟨hraw, -, -, fuel, s, s', e, hat⟩ := hbody hal hsize
  obtain ⟨-, hw, -⟩ := geometry_layout h hal hsize (fun k _ => hs k)
  obtain ⟨hbf, hbe, hbw, hbl⟩ := openBuf_inv hb
  have g : Good plot.buf := ⟨hbe, by omega, by omega, hsize, hal⟩
  have hext : plot.cda.raw.extra < 2 ^ 59 := by
    rw [hraw]
    have := hs 57
    show wordAt _ 57 < _
    omega
  obtain ⟨d0, t, d1, t1, e1, e2, same⟩ := readBody_ids e
  obtain ⟨t', r, hat'⟩ := readGeometry_at g (d := {}) (hat hext).2 hpk (by omega)
  rw [r] at e1
  cases e1
  rw [← hk] at hat'
  have hnar : plot.cda.raw.narbs < 2 ^ 32 := by rw [hraw]; exact hs 39
  have hm : plot.cda.raw.nmmat < 2 ^ 32 := by rw [hraw]; exact hs 51
  have h88 : plot.cda.raw.nel8 < 2 ^ 32 := by
    have := signed_small hbw (hs 23)
    rw [hraw] at h8 ⊢
    change (rawAt plot.buf).nel8.natAbs < _ at this
    omega
  obtain ⟨ok, hlt⟩ := readUserIds_inv g hat' hn h8 hs hm hnar h88 e2
  obtain ⟨t2, r2, -⟩ := readUserIds_at g (d := geoPtrs plot.cda (64 + plot.cda.raw.extra + partWords plot.cda.ext) {}) hat' hn ok hlt
  rw [r2] at e2
  simp only [Res.ok.injEq, Prod.mk.injEq] at e2
  obtain ⟨⟨rfl, e3⟩, -⟩ := e2
  exact ⟨ok, hlt, e3.symm, _, same, rfl⟩

/-- C67: the title is in the first ten words of the database, the run time in the eleventh. -/
theorem c67_title {files : List Bytes} {plot : Plot} (h : openPlot files = .ok plot)
    (hal : Aligned plot.buf) (hsize : plot.buf.bytes.length < 2 ^ 63) :
    readTitle plot = .ok (plot, some (wordsFrom plot.buf 0 10)) ∧
    readRunTime plot = .ok (plot, some [wordAt plot.buf 10]) := by
  obtain ⟨hb, -⟩ := openPlot_inv h
  obtain ⟨hbf, hbe, hbw, hbl⟩ := openBuf_inv hb
  have g : Good plot.buf := ⟨hbe, by omega, by omega, hsize, hal⟩
  have hw : 22 < words plot.buf := by
    rw [lt_words g]
    unfold Buf.bytes
    rw [hbf]
    rcases hbw with h | h <;> rw [h] <;> omega
  exact ⟨readAt_at g (by omega) (by omega), readAt_at g (by omega) (by omega)⟩

/-- Specification: the first word with an id: behind 16 words if the ids start with a negative number, otherwise behind 10. -/
def firstId (b : Buf) : Nat := idsStart b + (if signed b.ws (wordAt b (idsStart b)) < 0 then 16 else 10)

/-- C67: the section with the ids of an opened database agrees with the control data, is complete, and the calls for the ids
return its words: first those of the nodes, then those of the solids, beams, shells and thick shells, and, if the section
has them, of the parts. Assumptions: the words are below 2^32 (always the case for words of four bytes), NEL8 is not
negative, there are ids. -/
theorem c67_ids {files : List Bytes} {plot : Plot} (h : openPlot files = .ok plot)
    (hal : Aligned plot.buf) (hsize : plot.buf.bytes.length < 2 ^ 63) (hs : ∀ k, wordAt plot.buf k < 2 ^ 32)
    (h8 : wordAt plot.buf 23 < 256 ^ plot.buf.ws / 2) (hn : wordAt plot.buf 39 ≠ 0) :
    let b := plot.buf
    let nodes := firstId b
    let solids := nodes + wordAt b 16
    let beams := solids + wordAt b 23
    let shells := beams + wordAt b 28
    let thicks := shells + wordAt b 31
    let parts := thicks + wordAt b 40
    IdsSection b ∧ idsStart b + wordAt b 39 < words b ∧
    readNodeIds plot = .ok (plot, some (wordsFrom b nodes (wordAt b 16))) ∧
    readSolidIds plot = .ok (plot, some (wordsFrom b solids (wordAt b 23))) ∧
    readBeamIds plot = .ok (plot, some (wordsFrom b beams (wordAt b 28))) ∧
    readShellIds plot = .ok (plot, some (wordsFrom b shells (wordAt b 31))) ∧
    readThickIds plot = .ok (plot, some (wordsFrom b thicks (wordAt b 40))) ∧
    (signed b.ws (wordAt b (idsStart b)) < 0 → wordAt b 51 ≤ wordAt b (idsStart b + 15) →
      readPartIds plot = .ok (plot, some (wordsFrom b parts (wordAt b 51)))) := by
  intro b nodes solids beams shells thicks parts
  obtain ⟨hb, hbody, hder, -, hpk⟩ := openPlot_body h
  obtain ⟨hraw, -, -, fuel, s, s', e, hat⟩ := hbody hal hsize
  obtain ⟨hbf, hbe, hbw, hbl⟩ := openBuf_inv hb
  have g : Good plot.buf := ⟨hbe, by omega, by omega, hsize, hal⟩
  have hext : plot.cda.raw.extra < 2 ^ 59 := by
    rw [hraw]
    have := hs 57
    show wordAt _ 57 < _
    omega
  have hxo := (hat hext).1
  have e8 := nel8_eq h8
  have hk := idsStart_eq (b := plot.buf) hraw (derive_ndim hder).1 h8
  have hk' : idsStart b = 64 + plot.cda.raw.extra + partWords plot.cda.ext + geoLen plot.cda := by
    rw [← hk, hxo]
    unfold geoStart
    rw [hraw]
    rfl
  obtain ⟨ok, hlt, -, d, ⟨s1, s2, s3, s4, s5, s6⟩, hd⟩ := openPlot_ids h hal hsize hs (by rw [hraw, e8]; omega)
    (by rw [hraw]; exact hn) hk'
  obtain ⟨o1, o2, o3, o4, o5, o6⟩ := ok
  have c1 : plot.cda.raw.numnp = wordAt b 16 := by rw [hraw]; rfl
  have c2 : plot.cda.raw.nel8 = wordAt b 23 := by rw [hraw]; exact e8
  have c3 : plot.cda.raw.nel2 = wordAt b 28 := by rw [hraw]; rfl
  have c4 : plot.cda.raw.nel4 = wordAt b 31 := by rw [hraw]; rfl
  have c5 : plot.cda.raw.nelt = wordAt b 40 := by rw [hraw]; rfl
  have c6 : plot.cda.raw.narbs = wordAt b 39 := by rw [hraw]; rfl
  have c7 : plot.cda.raw.nmmat = wordAt b 51 := by rw [hraw]; rfl
  have c8 : toU64 plot.cda.raw.nel8 = wordAt b 23 := by
    have : wordAt b 23 < 2 ^ 32 := hs 23
    rw [c2, toU64_nonneg (by omega) (by unfold u64; simp only [Int.toNat_natCast]; omega)]
    rfl
  have c9 : plot.cda.raw.nel8.toNat = wordAt b 23 := by rw [c2]; rfl
  have hf : firstId b = idsStart b + idHead b (idsStart b) := rfl
  rw [c6] at hlt o6
  rw [c1, c9, c3, c4, c5] at o6
  have o7 : wordAt b 39 = idHead b (idsStart b) + wordAt b 16 + wordAt b 23 + wordAt b 28 + wordAt b 31 + wordAt b 40 +
      3 * idMats b plot.cda (idsStart b) := o6
  have hlt' : idsStart b + wordAt b 39 < words plot.buf := hlt
  have p1 : plot.ptrs.nodeIds = nodes := s1
  have p2 : plot.ptrs.el8Ids = solids := by rw [s2]; show _ + plot.cda.raw.numnp = _; rw [c1]; rfl
  have p3 : plot.ptrs.el2Ids = beams := by
    rw [s3]; show _ + plot.cda.raw.numnp + plot.cda.raw.nel8.toNat = _; rw [c1, c9]; rfl
  have p4 : plot.ptrs.el4Ids = shells := by
    rw [s4]; show _ + plot.cda.raw.numnp + plot.cda.raw.nel8.toNat + plot.cda.raw.nel2 = _; rw [c1, c9, c3]; rfl
  have p5 : plot.ptrs.eltIds = thicks := by
    rw [s5]
    show _ + plot.cda.raw.numnp + plot.cda.raw.nel8.toNat + plot.cda.raw.nel2 + plot.cda.raw.nel4 = _
    rw [c1, c9, c3, c4]; rfl
  have n0 : nodes = idsStart b + idHead b (idsStart b) := rfl
  have n1 : solids = nodes + wordAt b 16 := rfl
  have n2 : beams = solids + wordAt b 23 := rfl
  have n3 : shells = beams + wordAt b 28 := rfl
  have n4 : thicks = shells + wordAt b 31 := rfl
  have n5 : parts = thicks + wordAt b 40 := rfl
  have rds : ∀ {p n : Nat}, p + n ≤ idsStart b + wordAt b 39 → readIds plot p n = .ok (plot, some (wordsFrom b p n)) := by
    intro p n hp
    unfold readIds
    by_cases hz : n = 0
    · rw [if_pos hz, hz]; rfl
    · rw [if_neg hz]
      exact readAt_at g (by omega) (by omega)
  refine ⟨⟨o1.trans c1, ?_, o3.trans c3, o4.trans c4, o5.trans c5, ?_⟩, hlt, ?_, ?_, ?_, ?_, ?_, ?_⟩
  · rw [c2] at o2; exact Int.ofNat.inj o2
  · unfold idHead idMats at o7
    rw [c7] at o7
    by_cases hneg : signed b.ws (wordAt b (idsStart b)) < 0
    · rw [if_pos hneg, if_pos hneg] at o7
      show wordAt b 39 = _ + (if signed b.ws (wordAt b (idsStart b)) < 0 then _ else _)
      rw [if_pos hneg, o7]
      show _ = wordAt b 16 + wordAt b 23 + wordAt b 28 + wordAt b 31 + wordAt b 40 + (16 + 3 * wordAt b (idsStart b + 15))
      omega
    · rw [if_neg hneg, if_neg hneg] at o7
      show wordAt b 39 = _ + (if signed b.ws (wordAt b (idsStart b)) < 0 then _ else _)
      rw [if_neg hneg, o7]
      show _ = wordAt b 16 + wordAt b 23 + wordAt b 28 + wordAt b 31 + wordAt b 40 + (10 + 3 * wordAt b 51)
      omega
  · unfold readNodeIds; rw [p1, c1]; exact rds (by omega)
  · unfold readSolidIds; rw [p2, c8]; exact rds (by omega)
  · unfold readBeamIds; rw [p3, c3]; exact rds (by omega)
  · unfold readShellIds; rw [p4, c4]; exact rds (by omega)
  · unfold readThickIds; rw [p5, c5]; exact rds (by omega)
  · intro hneg hmm
    have p6 : plot.ptrs.partIds = parts := by
      rw [s6]
      show (if signed plot.buf.ws (wordAt plot.buf (idsStart b)) < 0 then
        _ + plot.cda.raw.numnp + plot.cda.raw.nel8.toNat + plot.cda.raw.nel2 + plot.cda.raw.nel4 + plot.cda.raw.nelt else _) = _
      rw [if_pos hneg, c1, c9, c3, c4, c5]; rfl
    have hm : idMats b plot.cda (idsStart b) = wordAt b (idsStart b + 15) := by unfold idMats; rw [if_pos hneg]
    have hh : 10 ≤ idHead b (idsStart b) := by unfold idHead; split <;> omega
    have hc : idMats plot.buf plot.cda (idsStart b) = idMats b plot.cda (idsStart b) := rfl
    have hc' : idHead plot.buf (idsStart b) = idHead b (idsStart b) := rfl
    unfold readPartIds
    rw [if_neg (by rw [p6]; omega), p6, c7]
    exact rds (by omega)

/-- C67: the number of parts is taken from the control data even if the section with the ids has another one; then other
words are returned as ids. -/
theorem c67_part_count : ∃ plot, openPlot (otherBuf [(51, 3)] eof32).files = .ok plot ∧
    wordAt plot.buf (idsStart plot.buf + 15) = 1 ∧ readPartIds plot = .ok (plot, some [7, 1, 1]) := by
  obtain ⟨plot, h1, h2⟩ := Res.is_iff (r := openPlot (otherBuf [(51, 3)] eof32).files) (f := fun plot =>
    decide (wordAt plot.buf (idsStart plot.buf + 15) = 1) && decide (readPartIds plot = .ok (plot, some [7, 1, 1]))) (by decide +kernel)
  rw [Bool.and_eq_true] at h2
  exact ⟨plot, h1, of_decide_eq_true h2.1, of_decide_eq_true h2.2⟩

/-- The sample meets the hypotheses. -/
example : ∃ plot, openPlot sampleFiles = .ok plot ∧ wordAt plot.buf 39 ≠ 0 ∧ firstId plot.buf = 115 ∧
    signed plot.buf.ws (wordAt plot.buf (idsStart plot.buf)) < 0 ∧
    wordsFrom plot.buf (firstId plot.buf) 2 = [101, 102] := by
  obtain ⟨plot, h1, h2⟩ := Res.is_iff (r := openPlot sampleFiles) (f := fun plot =>
    decide (wordAt plot.buf 39 ≠ 0) && decide (firstId plot.buf = 115) &&
    decide (signed plot.buf.ws (wordAt plot.buf (idsStart plot.buf)) < 0) &&
    decide (wordsFrom plot.buf (firstId plot.buf) 2 = [101, 102])) (by decide +kernel)
  simp only [Bool.and_eq_true, decide_eq_true_eq] at h2
  exact ⟨plot, h1, h2.1.1.1, h2.1.1.2, h2.1.2, h2.2⟩

end Dyna.D3
