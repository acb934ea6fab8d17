import Verif.Props.D3Calls
import Verif.D3PlotOpen
/-!
# Which databases are accepted (C66)

`d3plot_open` supports a part of the format. What it does not support is rejected with an error.
-/

namespace Dyna.D3

/-- Specification: the control words of the databases that are supported. The positions are those of the format
description (word 15 is NDIM, …). -/
structure Accepts (b : Buf) : Prop where
  /-- NDIM: three dimensions with unpacked connectivity -/
  ndim : wordAt b 15 = 4
  /-- ICODE: the order of the elements is the one of LS-DYNA -/
  icode : wordAt b 17 = 2 ∨ wordAt b 17 = 6
  /-- IT: no temperatures -/
  noTemperatures : wordAt b 19 = 0
  /-- NUMDS, NUMST -/
  noRigidShells : wordAt b 25 = 0
  numst : wordAt b 26 = 0
  /-- NEIPS: at most 255 history variables -/
  history : wordAt b 35 ≤ 255
  /-- MAXINT: at most 255 integration points, with the three encodings of the deletion option -/
  points : let m := signed b.ws (wordAt b 36)
    (-255 ≤ m ∧ m ≤ 255) ∨ (-10255 ≤ m ∧ m < -10000)
  /-- NMSPH: no particles -/
  noSph : wordAt b 37 = 0
  /-- IALEMAT: no fluids -/
  noFluids : wordAt b 47 = 0
  /-- NPEFG -/
  noAirbags : wordAt b 54 = 0
  /-- IDTDT: no temperature rates, residual forces and moments, plastic strain and thermal strain tensors -/
  noRates : ∀ k, k < 4 → wordAt b 56 / 10 ^ k % 10 ≠ 1

theorem accepts_of {b : Buf} {x : Extra} {c : Cda} (h : derive (rawAt b) x = .ok c) (hs : supported c = true)
    (hp : c.packed = false) : Accepts b := by
  obtain ⟨hr, -, hd, hn, -, -, -, -, hm, hmax, hic, hne, -, d0, d1, d2, d3⟩ := derive_inv h
  unfold supported at hs
  simp only [Bool.and_eq_true, Bool.not_eq_true', beq_iff_eq, hr] at hs
  obtain ⟨⟨⟨⟨⟨⟨s1, s2⟩, s3⟩, s4⟩, s5⟩, s6⟩, s7⟩ := hs
  refine ⟨?_, hic, s7, s5, s6, hne, ?_, s3, s2, s4, ?_⟩
  · rw [hn, hp, s1] at hd
    show (rawAt b).ndim = 4
    unfold dimension at hd
    revert hd
    split
    · intro h; cases h
    split
    · intro h; cases h
    split
    · intro; assumption
    · intro h
      simp only [Prod.mk.injEq] at h
      omega
  · have hrt := c40_deletion_round_trip.1 (rawAt b).maxint
    rw [← hm] at hrt
    have hsz : c.maxint ≤ 255 := hmax
    have he := hrt.1
    simp only at he hrt ⊢
    change encodeMaxint c.mdlopt c.maxint = signed b.ws (wordAt b 36) at he
    unfold encodeMaxint at he
    split at he
    · omega
    · split at he
      · omega
      · have hm' := hm
        unfold deletion at hm'
        have e36 : (rawAt b).maxint = signed b.ws (wordAt b 36) := rfl
        rw [e36] at hm'
        split at hm'
        · simp only [Prod.mk.injEq] at hm'; omega
        · split at hm'
          · simp only [Prod.mk.injEq] at hm'; omega
          · simp only [Prod.mk.injEq] at hm'; omega
  · intro k hk
    rw [← c40_digits]
    rcases (by omega : k = 0 ∨ k = 1 ∨ k = 2 ∨ k = 3) with rfl | rfl | rfl | rfl
    · exact d0
    · exact d1
    · exact d2
    · exact d3

theorem derive_total {r : Raw} {x : Extra} (h : (5 + x.neipb) % u64 ≠ 0) :
    derive r x = .err ∨ ∃ c, derive r x = .ok c := by
  unfold derive
  rw [if_neg h]
  dsimp only
  repeat' split
  all_goals first | exact .inl rfl | exact .inr ⟨_, rfl⟩

/-- Supported control words are not rejected when the control data is derived. -/
theorem derive_of {b : Buf} {x : Extra} (h : Accepts b) (h0 : (5 + x.neipb) % u64 ≠ 0) :
    ∃ c, derive (rawAt b) x = .ok c ∧ supported c = true ∧ c.packed = false ∧ c.raw = rawAt b ∧ c.ext = x ∧ c.ndim = 3 := by
  obtain ⟨a1, a2, a3, a4, a5, a6, a7, a8, a9, a10, a11⟩ := h
  have e1 : (rawAt b).ndim = 4 := a1
  have e2 : (rawAt b).icode = 2 ∨ (rawAt b).icode = 6 := a2
  have e3 : (rawAt b).it = 0 := a3
  have e4 : (rawAt b).numds = 0 := a4
  have e5 : (rawAt b).numst = 0 := a5
  have e6 : (rawAt b).neips ≤ 255 := a6
  have e8 : (rawAt b).nmsph = 0 := a8
  have e9 : (rawAt b).ialemat = 0 := a9
  have e10 : (rawAt b).npefg = 0 := a10
  have e7 : (deletion (rawAt b).maxint).2 ≤ 255 := by
    have e36 : (rawAt b).maxint = signed b.ws (wordAt b 36) := rfl
    rw [e36]
    simp only at a7
    unfold deletion
    split
    · simp only; omega
    · split
      · simp only; omega
      · simp only; omega
  have e11 : ∀ k, k < 4 → digit (rawAt b).idtdt k ≠ 1 := fun k hk => by rw [c40_digits]; exact a11 k hk
  unfold derive
  rw [if_neg h0]
  simp only [e1, show dimension 4 = (3, false, false) from rfl]
  rw [if_neg (by simp), if_neg (by
    rintro (h | h | h | h)
    · exact e11 0 (by omega) h
    · exact e11 1 (by omega) h
    · exact e11 2 (by omega) h
    · exact e11 3 (by omega) h), if_neg (by omega), if_neg (by omega), if_neg (by omega)]
  refine ⟨_, rfl, ?_, rfl, rfl, rfl, rfl⟩
  unfold supported
  simp [e3, e4, e5, e8, e9, e10]

/-- C66: whatever has been opened satisfies the requirements. -/
theorem c66_accepted {files : List Bytes} {plot : Plot} (h : openPlot files = .ok plot)
    (hal : Aligned plot.buf) (hsize : plot.buf.bytes.length < 2 ^ 63) : Accepts plot.buf := by
  obtain ⟨hb, hinv, hder, hsup, hpk⟩ := openPlot_inv h
  obtain ⟨hraw, -⟩ := hinv hal hsize
  rw [hraw] at hder
  exact accepts_of hder hsup hpk

/-! ## Rejection -/

theorem failClose_at {α : Type} {b : Buf} {k : Nat} {s : S} (h : At b k s) : (failClose : M α) s = .err := by
  obtain ⟨_, q, h2, _⟩ := h
  unfold failClose
  rw [h2]

theorem bind_err {α β : Type} {m : M α} {f : α → M β} {s : S} (h : m s = .err) : (m >>= f) s = .err := by
  rw [bind_eq, h]

/-- Specification: a family whose control data is complete. -/
structure Complete (b : Buf) : Prop where
  good : Good b
  buffer : openBuf b.files = .ok b
  extra : wordAt b 57 = 0 ∨ 18 ≤ wordAt b 57
  words : geoStart b < words b
  /-- NEIPB is not 2^64 - 5: otherwise `d3plot_open` divides by 0 -/
  neipb : (5 + (extOf b).neipb) % u64 ≠ 0

theorem openPlot_control {b : Buf} (C : Complete b) (hty : wordAt b 11 = 1 ∨ wordAt b 11 = 1001) :
    ∃ t, At b (geoStart b) t ∧ ∀ fuel, fuel = b.files.flatten.length + b.files.length + 1 →
      (derive (rawAt b) (extOf b) = .err → openPlot b.files = .err) ∧
      ∀ c, derive (rawAt b) (extOf b) = .ok c →
        (supported c = false → openPlot b.files = .err) ∧
        (supported c = true → readBody fuel c t = .err → openPlot b.files = .err) := by
  have g := C.good
  have hws := g.ws
  have hgs : geoStart b = 64 + wordAt b 57 + partWords (extOf b) := rfl
  have hw := C.words
  have hextra := C.extra
  have hlen0 : 0 < b.bytes.length := by
    have := words_mul g
    have h2 : 0 < D3.words b * b.ws := Nat.mul_pos (by omega) g.ws
    omega
  obtain ⟨q, q1, q2, q3, q4⟩ := seek_inside (b := b) (w := 0) (by unfold u64; omega) (by simpa using hlen0)
  have h0 : At b 0 ⟨b, (seek b 0).2⟩ := ⟨rfl, q, by rw [q1], q2, q3, q4⟩
  obtain ⟨t, e1, h⟩ := skip_at g h0 (n := 10) (by omega)
  obtain ⟨t, e2, h⟩ := skip_at g h (n := 1) (by omega)
  obtain ⟨t3, e3, h⟩ := rd_at g h (by omega)
  replace h := h.at
  have hft : ¬ (if wordAt b (0 + 10 + 1) > 1000 then wordAt b (0 + 10 + 1) - 1000 else wordAt b (0 + 10 + 1)) ≠ 1 := by
    show ¬ (if wordAt b 11 > 1000 then wordAt b 11 - 1000 else wordAt b 11) ≠ 1
    rcases hty with h | h <;> rw [h] <;> decide
  have hopen : readPlot (b.files.flatten.length + b.files.length + 1) t3 = .err → openPlot b.files = .err := by
    intro hr
    unfold openPlot
    rw [C.buffer]
    simp only
    rw [bind_ok e1, bind_ok e2, bind_ok e3, if_neg hft, hr]
  obtain ⟨t4, r4, h⟩ := skip_at g h (n := 1) (by omega)
  obtain ⟨t5, r5, h⟩ := skip_at g h (n := 1) (by omega)
  obtain ⟨t6, r6, h⟩ := skip_at g h (n := 1) (by omega)
  obtain ⟨t7, r7, h⟩ := readRaw_at g h (by omega)
  obtain ⟨t8, r8, h⟩ := readExtra_at g h hextra (by omega)
  have r8' : readExtra (rawAt b).extra t7 = .ok (extOf b, t8) := r8
  have hrun : ∀ fuel, readPlot fuel t3 = (match derive (rawAt b) (extOf b) with
      | .ub => undef
      | .abort => undef
      | .err => failClose
      | .ok c =>
        if !supported c then failClose else do
        let (numrbs, d, states) ← readBody fuel c
        pure (c, numrbs, d, states) : M (Cda × Nat × Ptrs × List Nat)) t8 := by
    intro fuel
    unfold readPlot
    rw [bind_ok r4, bind_ok r5, bind_ok r6, bind_ok r7, bind_ok r8', bind_ok (hasErr_at g h)]
    rfl
  refine ⟨t8, h, fun fuel hf => ⟨fun hd => ?_, fun c hd => ⟨fun hs => ?_, fun hs hb => ?_⟩⟩⟩
  · apply hopen
    rw [hrun, hd]
    exact failClose_at h
  · apply hopen
    rw [hrun, hd]
    simp only [hs, Bool.not_false, if_true]
    exact failClose_at h
  · apply hopen
    rw [hrun, hd]
    simp only [hs, Bool.not_true, Bool.false_eq_true, if_false]
    rw [← hf]
    exact bind_err hb

/-- C66: a database with complete control data that does not satisfy the requirements is rejected with an error. -/
theorem c66_rejected {b : Buf} (C : Complete b) (hn : ¬ Accepts b) : openPlot b.files = .err := by
  by_cases hty : wordAt b 11 = 1 ∨ wordAt b 11 = 1001
  · obtain ⟨t, h, hrun⟩ := openPlot_control C hty
    obtain ⟨h1, h2⟩ := hrun _ rfl
    rcases derive_total (r := rawAt b) C.neipb with hd | ⟨c, hd⟩
    · exact h1 hd
    · obtain ⟨h3, h4⟩ := h2 c hd
      by_cases hs : supported c = true
      · apply h4 hs
        have hp : c.packed = true := by
          cases hpk : c.packed with
          | true => rfl
          | false => exact absurd (accepts_of hd hs hpk) hn
        unfold readBody
        apply bind_err
        unfold readGeometry
        rw [bind_ok (curWord_at h), hp]
        rfl
      · exact h3 (by simpa using hs)
  · have g := C.good
    have hws := g.ws
    have hgs : geoStart b = 64 + wordAt b 57 + partWords (extOf b) := rfl
    have hw := C.words
    have hlen0 : 0 < b.bytes.length := by
      have := words_mul g
      have h2 : 0 < D3.words b * b.ws := Nat.mul_pos (by omega) g.ws
      omega
    obtain ⟨q, q1, q2, q3, q4⟩ := seek_inside (b := b) (w := 0) (by unfold u64; omega) (by simpa using hlen0)
    have h0 : At b 0 ⟨b, (seek b 0).2⟩ := ⟨rfl, q, by rw [q1], q2, q3, q4⟩
    obtain ⟨t, e1, h⟩ := skip_at g h0 (n := 10) (by omega)
    obtain ⟨t, e2, h⟩ := skip_at g h (n := 1) (by omega)
    obtain ⟨t3, e3, h⟩ := rd_at g h (by omega)
    replace h := h.at
    unfold openPlot
    rw [C.buffer]
    simp only
    rw [bind_ok e1, bind_ok e2, bind_ok e3]
    have hft : (if wordAt b (0 + 10 + 1) > 1000 then wordAt b (0 + 10 + 1) - 1000 else wordAt b (0 + 10 + 1)) ≠ 1 := by
      show (if wordAt b 11 > 1000 then wordAt b 11 - 1000 else wordAt b 11) ≠ 1
      split <;> omega
    rw [if_pos hft, failClose_at h]

/-- C66: a file that is not a d3plot (file type 1, or 1001 for 64 bit ids) is rejected with an error. -/
theorem c66_file_type {b : Buf} (g : Good b) (hb : openBuf b.files = .ok b) (hw : 11 < words b)
    (hty : wordAt b 11 ≠ 1 ∧ wordAt b 11 ≠ 1001) : openPlot b.files = .err := by
  have hws := g.ws
  obtain ⟨-, -, -, hl⟩ := openBuf_inv hb
  have hlen0 : 0 < b.bytes.length := by unfold Buf.bytes; omega
  obtain ⟨q, q1, q2, q3, q4⟩ := seek_inside (b := b) (w := 0) (by unfold u64; omega) (by simpa using hlen0)
  have h0 : At b 0 ⟨b, (seek b 0).2⟩ := ⟨rfl, q, by rw [q1], q2, q3, q4⟩
  obtain ⟨t, e1, h⟩ := skip_at g h0 (n := 10) (by omega)
  obtain ⟨t, e2, h⟩ := skip_at g h (n := 1) (by omega)
  obtain ⟨t3, e3, h⟩ := rd_at g h (by omega)
  replace h := h.at
  unfold openPlot
  rw [hb]
  simp only
  rw [bind_ok e1, bind_ok e2, bind_ok e3]
  have hft : (if wordAt b (0 + 10 + 1) > 1000 then wordAt b (0 + 10 + 1) - 1000 else wordAt b (0 + 10 + 1)) ≠ 1 := by
    show (if wordAt b 11 > 1000 then wordAt b 11 - 1000 else wordAt b 11) ≠ 1
    split <;> omega
  rw [if_pos hft, failClose_at h]

/-! ## The end of the geometry -/

/-- Specification: word `i` of the additional control block, which exists if EXTRA is not 0. -/
def extraWord (b : Buf) (i : Nat) : Nat := if wordAt b 57 = 0 then 0 else wordAt b (64 + i)

/-- Specification: the number of words in front of the ids, from the control words: 64 control words,
EXTRA more, NPART descriptions of nine words if there are higher order elements, coordinates (three words for each of the NUMNP
nodes), solids (9), thick shells (9), beams (6), shells (5). -/
def idsStart (b : Buf) : Nat :=
  64 + wordAt b 57 +
  (if 0 < extraWord b 10 ∨ 0 < extraWord b 11 then 1 + 9 * wordAt b (64 + wordAt b 57) else 0) +
  3 * wordAt b 16 + 9 * wordAt b 23 + 9 * wordAt b 40 + 6 * wordAt b 28 + 5 * wordAt b 31

/-- Specification: the section with the ids (NARBS words): the header repeats the numbers of nodes, solids, beams, shells and
thick shells; NSORT < 0 means a header of 16 words that contains the number of materials. -/
structure IdsSection (b : Buf) : Prop where
  nodes : wordAt b (idsStart b + 5) = wordAt b 16
  solids : wordAt b (idsStart b + 6) = wordAt b 23
  beams : wordAt b (idsStart b + 7) = wordAt b 28
  shells : wordAt b (idsStart b + 8) = wordAt b 31
  thick : wordAt b (idsStart b + 9) = wordAt b 40
  length : wordAt b 39 = wordAt b 16 + wordAt b 23 + wordAt b 28 + wordAt b 31 + wordAt b 40 +
    (if signed b.ws (wordAt b (idsStart b)) < 0 then 16 + 3 * wordAt b (idsStart b + 15) else 10 + 3 * wordAt b 51)

/-- Specification: the number of words in front of the end marker of the geometry: NARBS words with ids, the additional
nodes of 8 node shells (5), 20 node solids (13), 27, 21, 15 node elements (28, 22, 16) if QUADR is set, 20, 40, 64 node
elements (21, 41, 65) if CUBIC is set, and the adapted elements (2). -/
def endOfGeometry (b : Buf) : Nat :=
  idsStart b + wordAt b 39 +
  5 * wordAt b 55 + 13 * extraWord b 0 +
  (if 0 < extraWord b 10 then 28 * extraWord b 2 + 22 * extraWord b 4 + 16 * extraWord b 5 else 0) +
  (if 0 < extraWord b 11 then 21 * extraWord b 7 + 41 * extraWord b 8 + 65 * extraWord b 9 else 0) +
  2 * wordAt b 50

theorem nel8_eq {b : Buf} (h8 : wordAt b 23 < 256 ^ b.ws / 2) : (rawAt b).nel8 = wordAt b 23 := by
  show signed b.ws (wordAt b 23) = _
  unfold signed
  rw [if_pos h8]

theorem idsStart_eq {b : Buf} {c : Cda} (hr : c.raw = rawAt b) (hd : c.ndim = 3)
    (h8 : wordAt b 23 < 256 ^ b.ws / 2) : geoStart b + geoLen c = idsStart b := by
  have e8 := nel8_eq h8
  have e8' : (rawAt b).nel8.natAbs = wordAt b 23 := by rw [e8]; simp
  unfold geoStart geoLen idsStart partWords extraWord
  rw [hr, hd, e8']
  have hz : (if (rawAt b).nel8 > 0 then 0 else 2 * wordAt b 23) = 0 := by
    split
    · rfl
    · have : (rawAt b).nel8.natAbs = 0 := by omega
      rw [e8'] at this
      omega
  rw [hz]
  unfold extOf
  by_cases h0 : wordAt b 57 = 0
  · simp only [h0, if_true]
    simp only [rawAt]
    simp
    omega
  · simp only [h0, if_false]
    simp only [rawAt, extAt, gt_iff_lt]
    by_cases hq : 0 < wordAt b 74 <;> by_cases hc : 0 < wordAt b 75 <;>
      simp only [hq, hc, or_true, true_or, or_self, if_true, if_false, Nat.reduceAdd] <;> omega

theorem eofPos_eq {b : Buf} {c : Cda} (hr : c.raw = rawAt b) (hx : c.ext = extOf b) (hd : c.ndim = 3)
    (h8 : wordAt b 23 < 256 ^ b.ws / 2) : eofPos b c = endOfGeometry b := by
  have e8 := nel8_eq h8
  unfold eofPos endOfGeometry
  rw [idsStart_eq hr hd h8]
  unfold extraConnectivity extraWord
  rw [hr, hx, if_neg (show ¬ (rawAt b).nel8 < 0 by omega)]
  unfold extOf
  by_cases h0 : wordAt b 57 = 0
  · simp only [h0, if_true]
    simp only [rawAt]
    simp
  · simp only [h0, if_false]
    simp only [rawAt, extAt, gt_iff_lt]
    by_cases hq : 0 < wordAt b 74 <;> by_cases hc : 0 < wordAt b 75 <;>
      simp only [hq, hc, if_true, if_false, Nat.reduceAdd] <;> omega

theorem IdsSection.ok {b : Buf} (h : IdsSection b) {c : Cda} (hr : c.raw = rawAt b) (hd : c.ndim = 3)
    (h8 : wordAt b 23 < 256 ^ b.ws / 2) : IdsOk b c (geoStart b + geoLen c) := by
  have e8 := nel8_eq h8
  obtain ⟨a1, a2, a3, a4, a5, a6⟩ := h
  rw [idsStart_eq hr hd h8]
  refine ⟨?_, ?_, ?_, ?_, ?_, ?_⟩ <;> rw [hr]
  · exact a1
  · rw [e8, a2]
  · exact a3
  · exact a4
  · exact a5
  · rw [e8]
    unfold idHead idMats
    rw [hr]
    show wordAt b 39 = _ + wordAt b 16 + _ + wordAt b 28 + wordAt b 31 + wordAt b 40 + _
    rw [a6]
    split
    · simp only [Int.toNat_natCast]; omega
    · simp only [Int.toNat_natCast]
      show _ = 10 + _ + _ + _ + _ + _ + 3 * wordAt b 51
      omega

/-- C66: supported control words make `d3plot_open` go on with the geometry, whose end marker is expected at
`endOfGeometry`: `c` satisfies the requirements of `Family` (see `c32_states`). -/
theorem c66_supported {b : Buf} (h : Accepts b) (h0 : (5 + (extOf b).neipb) % u64 ≠ 0)
    (h8 : wordAt b 23 < 256 ^ b.ws / 2) :
    ∃ c, derive (rawAt b) (extOf b) = .ok c ∧ supported c = true ∧ c.packed = false ∧ c.raw = rawAt b ∧
      eofPos b c = endOfGeometry b ∧ (IdsSection b → IdsOk b c (geoStart b + geoLen c)) := by
  obtain ⟨c, c1, c2, c3, c4, c5, c6⟩ := derive_of h h0
  exact ⟨c, c1, c2, c3, c4, eofPos_eq c4 c5 c6 h8, fun hi => hi.ok c4 c6 h8⟩

/-- C66: a database without the end marker behind the geometry is rejected with an error. -/
theorem c66_end_marker {b : Buf} (C : Complete b) (hty : wordAt b 11 = 1 ∨ wordAt b 11 = 1001)
    (h8 : wordAt b 23 < 256 ^ b.ws / 2)
    (hids : wordAt b 39 = 0 ∨ IdsSection b)
    (hw : endOfGeometry b < words b)
    (hm : wordBytes b (endOfGeometry b) ≠ eofBytes b.ws) : openPlot b.files = .err := by
  by_cases ha : Accepts b
  · obtain ⟨c, c1, c2, c3, c4, c5, c6⟩ := derive_of ha C.neipb
    have hx : eofPos b c = geoStart b + geoLen c + c.raw.narbs + extraConnectivity c + 2 * c.raw.nadapt := rfl
    rw [← eofPos_eq c4 c5 c6 h8] at hw hm
    have g := C.good
    obtain ⟨t, h, hrun⟩ := openPlot_control C hty
    refine ((hrun _ rfl).2 c c1).2 c2 ?_
    unfold readBody
    obtain ⟨t, r, h⟩ := readGeometry_at g (d := {}) h c3 (by omega)
    rw [bind_ok r]
    clear r
    have hids' : ∃ s', readUserIds c (geoPtrs c (geoStart b) {}) t =
        .ok ((ptrsIds b c, numrbsOf b c), s') ∧ At b (geoStart b + geoLen c + c.raw.narbs) s' := by
      unfold ptrsIds numrbsOf
      by_cases hn : c.raw.narbs = 0
      · rw [if_pos hn, if_pos hn]
        refine ⟨t, ?_, ?_⟩
        · unfold readUserIds
          rw [if_pos hn]
          rfl
        · rw [hn]
          exact h
      · rw [if_neg hn, if_neg hn]
        refine readUserIds_at g h hn ?_ (by omega)
        rcases hids with hz | hz
        · exact absurd (by rw [c4]; exact hz) hn
        · exact hz.ok c4 c6 h8
    obtain ⟨t, r, h⟩ := hids'
    rw [bind_ok r]
    clear r
    simp only
    obtain ⟨t, r, h⟩ := readExtraConnectivity_at g (c := c) h (by omega)
    rw [bind_ok r]
    clear r
    obtain ⟨t, r, h⟩ := readAdapted_at g (c := c) h (by omega)
    rw [bind_ok r, bind_ok (wordSize_at h)]
    clear r
    obtain ⟨t, r, h⟩ := rdBytes_at g h (n := 1) (by omega) Nat.zero_lt_one
    rw [Nat.one_mul] at r
    rw [bind_ok r]
    clear r
    unfold wordBytes eofPos at hm
    rw [if_pos hm]
    exact failClose_at h.at
  · exact c66_rejected C ha

/-! ## The end marker -/

/-- Specification: the number `n` is the pattern of an IEEE 754 number of single precision (sign bit, 8 bits exponent, 23 bits
fraction) with the value `-a` or `a`: a normal number is `± (2^23 + fraction) * 2^(exponent - 150)`, a subnormal one
`± fraction * 2^(-149)`. -/
def SingleIs (n : Nat) (negative : Bool) (a : Nat) : Prop :=
  let exponent := n / 2 ^ 23 % 256
  let fraction := n % 2 ^ 23
  n < 2 ^ 32 ∧ negative = decide (n / 2 ^ 31 = 1) ∧ exponent ≠ 255 ∧
  (if exponent = 0 then fraction * 2 else (2 ^ 23 + fraction) * 2 ^ exponent) = a * 2 ^ 150

/-- Specification: the same for double precision (11 bits exponent, 52 bits fraction). -/
def DoubleIs (n : Nat) (negative : Bool) (a : Nat) : Prop :=
  let exponent := n / 2 ^ 52 % 2048
  let fraction := n % 2 ^ 52
  n < 2 ^ 64 ∧ negative = decide (n / 2 ^ 63 = 1) ∧ exponent ≠ 2047 ∧
  (if exponent = 0 then fraction * 2 else (2 ^ 52 + fraction) * 2 ^ exponent) = a * 2 ^ 1075

theorem scale_unique {m F A : Nat} (hF : F < 2 ^ m) {E E0 : Nat} (h : (2 ^ m + F) * 2 ^ E = A * 2 ^ E0)
    (h1 : 2 ^ m ≤ A) (h2 : A < 2 ^ (m + 1)) : E = E0 ∧ F = A - 2 ^ m := by
  have hp : ∀ k, 0 < 2 ^ k := fun k => Nat.two_pow_pos k
  have hE : E = E0 := by
    rcases Nat.lt_trichotomy E E0 with hlt | heq | hgt
    · exfalso
      obtain ⟨d, rfl⟩ : ∃ d, E0 = E + 1 + d := ⟨E0 - E - 1, by omega⟩
      have e : A * 2 ^ (E + 1 + d) = A * 2 * 2 ^ d * 2 ^ E := by
        rw [Nat.pow_add, Nat.pow_add]; simp only [Nat.pow_one]; ac_rfl
      rw [e] at h
      have h3 := Nat.eq_of_mul_eq_mul_right (hp E) h
      have h4 : A * 2 ≤ A * 2 * 2 ^ d := Nat.le_mul_of_pos_right _ (hp d)
      omega
    · exact heq
    · exfalso
      obtain ⟨d, rfl⟩ : ∃ d, E = E0 + 1 + d := ⟨E - E0 - 1, by omega⟩
      have e : (2 ^ m + F) * 2 ^ (E0 + 1 + d) = (2 ^ m + F) * 2 * 2 ^ d * 2 ^ E0 := by
        rw [Nat.pow_add, Nat.pow_add]; simp only [Nat.pow_one]; ac_rfl
      rw [e] at h
      have h3 := Nat.eq_of_mul_eq_mul_right (hp E0) h
      have h4 : (2 ^ m + F) * 2 ≤ (2 ^ m + F) * 2 * 2 ^ d := Nat.le_mul_of_pos_right _ (hp d)
      rw [Nat.pow_succ] at h2
      omega
  subst hE
  have := Nat.eq_of_mul_eq_mul_right (hp E) h
  exact ⟨rfl, by omega⟩

theorem single_marker (n : Nat) : SingleIs n true 999999 ↔ n = 3379831792 := by
  have hp : 999999 * 2 ^ 150 = 15999984 * 2 ^ 146 := by
    rw [show (150 : Nat) = 4 + 146 from rfl, Nat.pow_add, ← Nat.mul_assoc]
  unfold SingleIs
  simp only
  rw [hp]
  constructor
  · rintro ⟨h1, h2, h3, h4⟩
    have h2 : n / 2 ^ 31 = 1 := by simpa using h2.symm
    by_cases he : n / 2 ^ 23 % 256 = 0
    · exfalso
      rw [if_pos he] at h4
      have h5 : n % 2 ^ 23 < 2 ^ 23 := Nat.mod_lt _ (by decide)
      have h6 : 2 ^ 24 ≤ 2 ^ 146 := Nat.pow_le_pow_right (by decide) (by decide)
      generalize 2 ^ 146 = z at *
      omega
    · rw [if_neg he] at h4
      obtain ⟨a1, a2⟩ := scale_unique (Nat.mod_lt _ (by decide)) h4 (by decide) (by decide)
      omega
  · rintro rfl
    refine ⟨by decide, by decide, by decide, ?_⟩
    rw [if_neg (by decide), show 3379831792 / 2 ^ 23 % 256 = 146 from rfl]

theorem double_marker (n : Nat) : DoubleIs n true 999999 ↔ n = 13920209174949527552 := by
  have hp : 999999 * 2 ^ 1075 = (999999 * 2 ^ 33) * 2 ^ 1042 := by
    rw [show (1075 : Nat) = 33 + 1042 from rfl, Nat.pow_add, ← Nat.mul_assoc]
  unfold DoubleIs
  simp only
  rw [hp]
  constructor
  · rintro ⟨h1, h2, h3, h4⟩
    have h2 : n / 2 ^ 63 = 1 := by simpa using h2.symm
    by_cases he : n / 2 ^ 52 % 2048 = 0
    · exfalso
      rw [if_pos he] at h4
      have h5 : n % 2 ^ 52 < 2 ^ 52 := Nat.mod_lt _ (by decide)
      have h6 : 2 ^ 53 ≤ 2 ^ 1042 := Nat.pow_le_pow_right (by decide) (by decide)
      generalize 2 ^ 1042 = z at *
      omega
    · rw [if_neg he] at h4
      obtain ⟨a1, a2⟩ := scale_unique (Nat.mod_lt _ (by decide)) h4 (by decide) (by decide)
      omega
  · rintro rfl
    refine ⟨by decide, by decide, by decide, ?_⟩
    rw [if_neg (by decide), show 13920209174949527552 / 2 ^ 52 % 2048 = 1042 from rfl]

/-- C66: the end marker is the number -999999.0 and no other word. -/
theorem c66_marker (w : Bytes) (hb : ∀ c ∈ w, c < 256) :
    (w.length = 4 → (w = eofBytes 4 ↔ SingleIs (leNat w) true 999999)) ∧
    (w.length = 8 → (w = eofBytes 8 ↔ DoubleIs (leNat w) true 999999)) := by
  constructor
  · intro hl
    rw [single_marker]
    match w, hl with
    | [a, b, c, d], _ =>
      simp only [List.mem_cons, List.not_mem_nil, or_false, forall_eq_or_imp, forall_eq] at hb
      simp only [eofBytes, if_true, leNat, List.cons.injEq, and_true]
      omega
  · intro hl
    rw [double_marker]
    match w, hl with
    | [a, b, c, d, e, f, g, h], _ =>
      simp only [List.mem_cons, List.not_mem_nil, or_false, forall_eq_or_imp, forall_eq] at hb
      simp only [eofBytes, show (8 : Nat) ≠ 4 by decide, if_false, leNat, List.cons.injEq, and_true]
      omega

/-! ## Concrete cases that meet the hypotheses -/

/-- The sample with another control word, and with another word behind the geometry. -/
def otherBuf (set : List (Nat × Nat)) (marker : Nat) : Buf :=
  ⟨[pack (sampleControl (set ++ sampleSet) ++ sampleGeometry ++ sampleIds ++ marker :: sampleHeaderBlocks.drop 1),
    pack (sampleState 1000 ++ sampleState 2000 ++ [eof32]), pack (sampleState 3000 ++ [eof32, 0])], 4, false⟩

theorem otherBuf_complete (set : List (Nat × Nat)) (marker : Nat)
    (h1 : (otherBuf set marker).bytes.length < 2 ^ 63) (h2 : ∀ f ∈ (otherBuf set marker).files, f.length % 4 = 0)
    (h3 : openBuf (otherBuf set marker).files = .ok (otherBuf set marker))
    (h4 : wordAt (otherBuf set marker) 57 = 0) (h5 : geoStart (otherBuf set marker) < words (otherBuf set marker)) :
    Complete (otherBuf set marker) :=
  ⟨⟨rfl, by show 0 < 4; decide, by show 4 ≤ 8; decide, h1, fun f hf => Nat.dvd_of_mod_eq_zero (h2 f hf)⟩, h3, .inl h4, h5, by
    unfold extOf
    rw [if_pos h4]
    decide +kernel⟩

/-- IT = 1 (temperatures) is not supported. -/
example : openPlot (otherBuf [(19, 1)] eof32).files = .err :=
  c66_rejected (otherBuf_complete _ _ (by decide +kernel) (by decide +kernel) (by decide +kernel) (by decide +kernel)
    (by decide +kernel)) (fun h => absurd h.noTemperatures (by decide +kernel))

/-- A file type 4 (interface force file). -/
example : openPlot (otherBuf [(11, 4)] eof32).files = .err := by
  have C := otherBuf_complete [(11, 4)] eof32 (by decide +kernel) (by decide +kernel) (by decide +kernel) (by decide +kernel)
    (by decide +kernel)
  exact c66_file_type C.good C.buffer (by decide +kernel) (by decide +kernel)

/-- No end marker behind the geometry. -/
example : openPlot (otherBuf [] 5).files = .err :=
  c66_end_marker (otherBuf_complete _ _ (by decide +kernel) (by decide +kernel) (by decide +kernel) (by decide +kernel)
    (by decide +kernel)) (by decide +kernel) (by decide +kernel)
    (.inr ⟨by decide +kernel, by decide +kernel, by decide +kernel, by decide +kernel, by decide +kernel, by decide +kernel⟩)
    (by decide +kernel) (by decide +kernel)

/-- The sample is accepted. -/
example : Accepts sampleBuf :=
  ⟨by decide +kernel, by decide +kernel, by decide +kernel, by decide +kernel, by decide +kernel, by decide +kernel,
    by decide +kernel, by decide +kernel, by decide +kernel, by decide +kernel, by decide +kernel⟩

end Dyna.D3
