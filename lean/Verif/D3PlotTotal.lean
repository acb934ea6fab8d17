import Verif.D3PlotLemmas
/-!
# Opening a well formed family succeeds
-/

namespace Dyna.D3

theorem readRaw_at {b : Buf} (g : Good b) {s : S} (h : At b 15 s) (hw : 64 < words b) :
    ∃ s', readRaw s = .ok (rawAt b, s') ∧ At b 64 s' := by
  unfold readRaw
  iterate 8
    obtain ⟨t, e, h⟩ := rd_at g h (by omega)
    replace h := h.at
    rw [bind_ok e]
    clear e
  obtain ⟨t, e, h⟩ := rdSigned_at g h (by omega)
  replace h := h.at
  rw [bind_ok e]
  clear e
  iterate 12
    obtain ⟨t, e, h⟩ := rd_at g h (by omega)
    replace h := h.at
    rw [bind_ok e]
    clear e
  obtain ⟨t, e, h⟩ := rdSigned_at g h (by omega)
  replace h := h.at
  rw [bind_ok e]
  clear e
  obtain ⟨t, e, h⟩ := rd_at g h (by omega)
  replace h := h.at
  rw [bind_ok e]
  clear e
  obtain ⟨t, e, h⟩ := skip_at g h (n := 1) (by omega)
  rw [bind_ok e]
  clear e
  iterate 10
    obtain ⟨t, e, h⟩ := rd_at g h (by omega)
    replace h := h.at
    rw [bind_ok e]
    clear e
  obtain ⟨t, e, h⟩ := skip_at g h (n := 1) (by omega)
  rw [bind_ok e]
  clear e
  iterate 2
    obtain ⟨t, e, h⟩ := rd_at g h (by omega)
    replace h := h.at
    rw [bind_ok e]
    clear e
  obtain ⟨t, e, h⟩ := skip_at g h (n := 1) (by omega)
  rw [bind_ok e]
  clear e
  obtain ⟨t, e, h⟩ := skip_at g h (n := 1) (by omega)
  rw [bind_ok e]
  clear e
  iterate 4
    obtain ⟨t, e, h⟩ := rd_at g h (by omega)
    replace h := h.at
    rw [bind_ok e]
    clear e
  obtain ⟨t, e, h⟩ := skip_at g h (n := 6) (by omega)
  rw [bind_ok e]
  exact ⟨t, rfl, h⟩

theorem skipParts_at {b : Buf} (g : Good b) : ∀ (n : Nat) {k : Nat} {s : S}, At b k s →
    k + 9 * n < words b → ∃ s', skipParts n s = .ok ((), s') ∧ At b (k + 9 * n) s' := by
  intro n
  induction n with
  | zero =>
    intro k s h hw
    exact ⟨s, rfl, h⟩
  | succ n ih =>
    intro k s h hw
    unfold skipParts
    obtain ⟨t, e, h⟩ := skip_at g h (n := 9) (by omega)
    rw [bind_ok e]
    obtain ⟨t', e, h⟩ := ih h (by omega)
    refine ⟨t', e, ?_⟩
    rw [show k + 9 * (n + 1) = k + 9 + 9 * n by omega]
    exact h

/-- The additional control block of a file. Part of the specification, models no code. -/
def extOf (b : Buf) : Extra :=
  if wordAt b 57 = 0 then {}
  else extAt b (if wordAt b 74 > 0 ∨ wordAt b 75 > 0 then wordAt b (64 + wordAt b 57) else 0)

theorem readExtra_at {b : Buf} (g : Good b) {s : S} (h : At b 64 s)
    (hx : wordAt b 57 = 0 ∨ 18 ≤ wordAt b 57)
    (hw : 64 + wordAt b 57 + partWords (extOf b) < words b) :
    ∃ s', readExtra (wordAt b 57) s = .ok (extOf b, s') ∧
      At b (64 + wordAt b 57 + partWords (extOf b)) s' := by
  unfold readExtra
  have hext : extOf b = if wordAt b 57 = 0 then {}
    else extAt b (if wordAt b 74 > 0 ∨ wordAt b 75 > 0 then wordAt b (64 + wordAt b 57) else 0) := rfl
  revert hext hw hx
  generalize extOf b = x
  generalize wordAt b 57 = extra
  intro hx hw hext
  by_cases h0 : extra = 0
  · subst h0
    rw [if_pos rfl] at hext
    subst hext
    exact ⟨s, rfl, h⟩
  · rw [if_neg h0] at hext
    have h18 : 18 ≤ extra := by omega
    have hws := words_small g
    rw [if_pos (Nat.pos_of_ne_zero h0)]
    iterate 18
      obtain ⟨t, e, h⟩ := rd_at g h (by omega)
      replace h := h.at
      rw [bind_ok e]
      clear e
    have hsub : sub64 extra 18 = extra - 18 := by unfold sub64 u64; omega
    rw [hsub]
    obtain ⟨t, e, h⟩ := skip_at g h (n := extra - 18) (by omega)
    rw [bind_ok e]
    clear e
    rw [show 64 + 1 + 1 + 1 + 1 + 1 + 1 + 1 + 1 + 1 + 1 + 1 + 1 + 1 + 1 + 1 + 1 + 1 + 1 + (extra - 18) =
        64 + extra by omega] at h
    by_cases hq : 0 < wordAt b 74 ∨ 0 < wordAt b 75
    · have hq' : (decide (wordAt b 74 > 0) || decide (wordAt b 75 > 0)) = true := by simpa using hq
      rw [if_pos hq']
      rw [if_pos hq] at hext
      have hpw : partWords x = 1 + 9 * wordAt b (64 + extra) := by
        rw [hext]
        unfold partWords
        exact if_pos hq
      obtain ⟨t, e, h⟩ := rd_at g h (by omega)
      replace h := h.at
      rw [bind_ok e]
      clear e
      obtain ⟨t', e, h⟩ := skipParts_at g (wordAt b (64 + extra)) h (by omega)
      rw [bind_ok e]
      refine ⟨t', by rw [hext]; rfl, ?_⟩
      rw [hpw, ← Nat.add_assoc]
      exact h
    · have hq' : ¬ (decide (wordAt b 74 > 0) || decide (wordAt b 75 > 0)) = true := by simpa using hq
      rw [if_neg hq']
      rw [if_neg hq] at hext
      have hpw : partWords x = 0 := by
        rw [hext]
        unfold partWords
        exact if_neg hq
      refine ⟨t, by rw [hext]; rfl, ?_⟩
      rw [hpw]
      exact h

/-! ## Geometry and ids -/

/-- Number of words that opening skips for the geometry. Part of the specification, models no code. -/
def geoLen (c : Cda) : Nat :=
  c.raw.numnp * c.ndim + (if c.raw.nel8 > 0 then 0 else 2 * c.raw.nel8.natAbs) + 9 * c.raw.nel8.natAbs +
    9 * c.raw.nelt + 6 * c.raw.nel2 + 5 * c.raw.nel4

/-- The pointers into the geometry if the sections follow each other.
Part of the specification, models no code. -/
def geoPtrs (c : Cda) (k : Nat) (d : Ptrs) : Ptrs :=
  let p1 := k + c.raw.numnp * c.ndim
  let p2 := p1 + (if c.raw.nel8 > 0 then 0 else 2 * c.raw.nel8.natAbs) + 9 * c.raw.nel8.natAbs
  let p3 := p2 + 9 * c.raw.nelt
  let p4 := p3 + 6 * c.raw.nel2
  { d with
    nodeCoords := k
    el8Connect := p1
    eltConnect := if c.raw.nelt > 0 then p2 else d.eltConnect
    el2Connect := if c.raw.nel2 > 0 then p3 else d.el2Connect
    el4Connect := if c.raw.nel4 > 0 then p4 else d.el4Connect }

theorem ite_zero_mul (n m : Nat) (a : Nat) (h : a + m * n < u64) :
    (if n > 0 then (a + m * n) % u64 else a) = a + m * n := by
  by_cases hn : n > 0
  · rw [if_pos hn, Nat.mod_eq_of_lt h]
  · rw [if_neg hn]
    have : n = 0 := by omega
    subst this
    omega

theorem geometry_eq (c : Cda) (k : Nat) (d : Ptrs) (h : k + geoLen c < u64) :
    geometry c k d = (geoPtrs c k d, k + geoLen c) := by
  unfold geoLen at h
  unfold geometry geoPtrs
  simp only
  rw [Nat.mod_eq_of_lt (a := k + c.raw.numnp * c.ndim) (by omega)]
  rw [Nat.mod_eq_of_lt (a := k + c.raw.numnp * c.ndim +
    (if c.raw.nel8 > 0 then 0 else 2 * c.raw.nel8.natAbs) + 9 * c.raw.nel8.natAbs) (by omega)]
  rw [ite_zero_mul c.raw.nelt 9 _ (by omega)]
  rw [ite_zero_mul c.raw.nel2 6 _ (by omega)]
  rw [ite_zero_mul c.raw.nel4 5 _ (by omega)]
  unfold geoLen
  rw [Prod.mk.injEq]
  exact ⟨rfl, by omega⟩

theorem curWord_at {b : Buf} {k : Nat} {s : S} (h : At b k s) : curWord s = .ok (k, s) := by
  obtain ⟨h1, q, h2, h3, h4, h5⟩ := h
  unfold curWord
  rw [h2]
  simp [h5]

theorem hasErr_at {b : Buf} (g : Good b) {k : Nat} {s : S} (h : At b k s) :
    hasErr s = .ok (false, s) := by
  unfold hasErr
  rw [h.1, g.err]

theorem wordSize_at {b : Buf} {k : Nat} {s : S} (h : At b k s) : wordSize s = .ok (b.ws, s) := by
  unfold wordSize
  rw [h.1]

theorem sub64_add (a n : Nat) (h : a + n < u64) : sub64 (a + n) a = n := by
  unfold sub64
  unfold u64 at *
  omega

theorem readGeometry_at {b : Buf} (g : Good b) {c : Cda} {k : Nat} {s : S} {d : Ptrs} (h : At b k s)
    (hp : c.packed = false) (hw : k + geoLen c < words b) :
    ∃ s', readGeometry c d s = .ok (geoPtrs c k d, s') ∧ At b (k + geoLen c) s' := by
  have hws := words_small g
  unfold readGeometry
  rw [bind_ok (curWord_at h), hp]
  simp only [Bool.false_eq_true, if_false]
  rw [geometry_eq c k d (by unfold u64; omega)]
  simp only
  rw [sub64_add _ _ (by unfold u64; omega)]
  obtain ⟨t, e, h⟩ := skip_at g h (n := geoLen c) hw
  rw [bind_ok e, bind_ok (hasErr_at g h)]
  exact ⟨t, rfl, h⟩

/-- Number of words in front of the ids, and number of materials with ids: both depend on the
sign of the first word. Part of the specification, models no code. -/
def idHead (b : Buf) (k : Nat) : Nat := if signed b.ws (wordAt b k) < 0 then 16 else 10
/-- Part of the specification, models no code. -/
def idMats (b : Buf) (c : Cda) (k : Nat) : Nat :=
  if signed b.ws (wordAt b k) < 0 then wordAt b (k + 15) else c.raw.nmmat
/-- Part of the specification, models no code. -/
def idNumrbs (b : Buf) (k : Nat) : Nat :=
  if signed b.ws (wordAt b k) < 0 then wordAt b (k + 14) else 0

/-- The section with the ids at word `k` is well formed. Part of the specification, models no code. -/
structure IdsOk (b : Buf) (c : Cda) (k : Nat) : Prop where
  nodes : wordAt b (k + 5) = c.raw.numnp
  solids : (wordAt b (k + 6) : Int) = c.raw.nel8
  beams : wordAt b (k + 7) = c.raw.nel2
  shells : wordAt b (k + 8) = c.raw.nel4
  thick : wordAt b (k + 9) = c.raw.nelt
  length : c.raw.narbs = idHead b k + c.raw.numnp + c.raw.nel8.toNat + c.raw.nel2 + c.raw.nel4 +
    c.raw.nelt + 3 * idMats b c k

/-- The pointers to the ids. Part of the specification, models no code. -/
def idPtrs (b : Buf) (c : Cda) (k : Nat) (d : Ptrs) : Ptrs :=
  let p0 := k + idHead b k
  let p1 := p0 + c.raw.numnp
  let p2 := p1 + c.raw.nel8.toNat
  let p3 := p2 + c.raw.nel2
  let p4 := p3 + c.raw.nel4
  { d with
    nodeIds := p0, el8Ids := p1, el2Ids := p2, el4Ids := p3, eltIds := p4
    partIds := if signed b.ws (wordAt b k) < 0 then p4 + c.raw.nelt else d.partIds }

theorem toU64_nonneg {x : Int} (h : 0 ≤ x) (h' : x.toNat < u64) : toU64 x = x.toNat := by
  unfold toU64
  have : x % (u64 : Int) = x := Int.emod_eq_of_lt h (by omega)
  rw [this]

theorem readUserIds_at {b : Buf} (g : Good b) {c : Cda} {k : Nat} {s : S} {d : Ptrs} (h : At b k s)
    (hn : c.raw.narbs ≠ 0) (ok : IdsOk b c k) (hw : k + c.raw.narbs < words b) :
    ∃ s', readUserIds c d s = .ok ((idPtrs b c k d, idNumrbs b k), s') ∧
      At b (k + c.raw.narbs) s' := by
  have hws := words_small g
  obtain ⟨o1, o2, o3, o4, o5, o6⟩ := ok
  have hh : 10 ≤ idHead b k := by unfold idHead; split <;> omega
  have hu : u64 = 18446744073709551616 := rfl
  have h8 : toU64 c.raw.nel8 = c.raw.nel8.toNat := toU64_nonneg (by omega) (by omega)
  unfold readUserIds
  rw [if_neg hn, bind_ok (curWord_at h)]
  obtain ⟨t, e, h⟩ := rdSigned_at g h (by omega)
  replace h := h.at
  rw [bind_ok e, bind_ok (hasErr_at g h)]
  clear e
  simp only [Bool.false_eq_true, if_false]
  obtain ⟨t, e, h⟩ := skip_at g h (n := 4) (by omega)
  rw [bind_ok e]
  clear e
  iterate 5
    obtain ⟨t, e, h⟩ := rd_at g h (by omega)
    replace h := h.at
    rw [bind_ok e]
    clear e
  rw [bind_ok (hasErr_at g h)]
  simp only [Bool.false_eq_true, if_false]
  rw [if_neg (by simp only [ne_eq, Decidable.not_not]; exact o1),
    if_neg (by simp only [ne_eq, Decidable.not_not]; rw [h8]; show wordAt b (k + 6) = _; omega),
    if_neg (by simp only [ne_eq, Decidable.not_not]; exact o3),
    if_neg (by simp only [ne_eq, Decidable.not_not]; exact o4),
    if_neg (by simp only [ne_eq, Decidable.not_not]; exact o5)]
  have e1 : wordAt b (k + 1 + 4) = c.raw.numnp := o1
  have e2 : wordAt b (k + 1 + 4 + 1) = c.raw.nel8.toNat := by show wordAt b (k + 6) = _; omega
  have e3 : wordAt b (k + 1 + 4 + 1 + 1) = c.raw.nel2 := o3
  have e4 : wordAt b (k + 1 + 4 + 1 + 1 + 1) = c.raw.nel4 := o4
  have e5 : wordAt b (k + 1 + 4 + 1 + 1 + 1 + 1) = c.raw.nelt := o5
  rw [e1, e2, e3, e4, e5]
  clear e1 e2 e3 e4 e5
  have fin : ∀ (t : S) (head mats rbs : Nat), idHead b k = head → idMats b c k = mats →
      idNumrbs b k = rbs → At b (k + head) t →
      ∃ s', ((do
        let p0 ← curWord
        let p1 := (p0 + c.raw.numnp) % u64
        let p2 := (p1 + c.raw.nel8.toNat) % u64
        let p3 := (p2 + c.raw.nel2) % u64
        let p4 := (p3 + c.raw.nel4) % u64
        let p5 := (p4 + c.raw.nelt) % u64
        let p6 := (p5 + 3 * mats) % u64
        skip (sub64 p6 p0)
        if ← hasErr then fail else do
        let fin ← curWord
        if sub64 fin k ≠ c.raw.narbs then fail
        else pure ({ d with
          nodeIds := p0, el8Ids := p1, el2Ids := p2, el4Ids := p3, eltIds := p4
          partIds := if signed b.ws (wordAt b k) < 0 then p5 else d.partIds }, rbs)) : M (Ptrs × Nat)) t =
        .ok ((idPtrs b c k d, idNumrbs b k), s') ∧ At b (k + c.raw.narbs) s' := by
    intro t head mats rbs q1 q2 q3 h
    rw [q1, q2] at o6
    rw [bind_ok (curWord_at h)]
    rw [Nat.mod_eq_of_lt (a := k + head + c.raw.numnp) (by omega),
      Nat.mod_eq_of_lt (a := k + head + c.raw.numnp + c.raw.nel8.toNat) (by omega),
      Nat.mod_eq_of_lt (a := k + head + c.raw.numnp + c.raw.nel8.toNat + c.raw.nel2) (by omega),
      Nat.mod_eq_of_lt (a := k + head + c.raw.numnp + c.raw.nel8.toNat + c.raw.nel2 + c.raw.nel4) (by omega),
      Nat.mod_eq_of_lt (a := k + head + c.raw.numnp + c.raw.nel8.toNat + c.raw.nel2 + c.raw.nel4 + c.raw.nelt)
        (by omega),
      Nat.mod_eq_of_lt (a := k + head + c.raw.numnp + c.raw.nel8.toNat + c.raw.nel2 + c.raw.nel4 + c.raw.nelt +
        3 * mats) (by omega)]
    have hs : sub64 (k + head + c.raw.numnp + c.raw.nel8.toNat + c.raw.nel2 + c.raw.nel4 + c.raw.nelt +
        3 * mats) (k + head) = c.raw.narbs - head := by
      have := sub64_add (k + head) (c.raw.narbs - head) (by omega)
      rw [← this]
      congr 1
      omega
    rw [hs]
    obtain ⟨t, e, h⟩ := skip_at g h (n := c.raw.narbs - head) (by omega)
    rw [show k + head + (c.raw.narbs - head) = k + c.raw.narbs by omega] at h
    rw [bind_ok e, bind_ok (hasErr_at g h)]
    simp only [Bool.false_eq_true, if_false]
    rw [bind_ok (curWord_at h), sub64_add _ _ (by omega), if_neg (by simp)]
    refine ⟨t, ?_, h⟩
    unfold idPtrs
    rw [q1, q3]
    rfl
  by_cases hneg : signed b.ws (wordAt b k) < 0
  · rw [if_pos hneg]
    have q1 : idHead b k = 16 := by unfold idHead; rw [if_pos hneg]
    have q2 : idMats b c k = wordAt b (k + 15) := by unfold idMats; rw [if_pos hneg]
    have q3 : idNumrbs b k = wordAt b (k + 14) := by unfold idNumrbs; rw [if_pos hneg]
    obtain ⟨t1, r1, h⟩ := skip_at g h (n := 4) (by omega)
    obtain ⟨t2, r2, h⟩ := rd_at g h (by omega)
    replace h := h.at
    obtain ⟨t3, r3, h⟩ := rd_at g h (by omega)
    replace h := h.at
    have hb : (do
        skip 4
        let numrbs ← rd
        let nmmat ← rd
        pure (numrbs, nmmat) : M (Nat × Nat)) t = .ok ((wordAt b (k + 14), wordAt b (k + 15)), t3) := by
      rw [bind_ok r1, bind_ok r2, bind_ok r3]
      rfl
    rw [bind_ok hb]
    simp only
    rw [bind_ok (hasErr_at g h)]
    simp only [Bool.false_eq_true, and_false, if_false]
    exact fin t3 16 (wordAt b (k + 15)) (wordAt b (k + 14)) q1 q2 q3 h
  · rw [if_neg hneg]
    have q1 : idHead b k = 10 := by unfold idHead; rw [if_neg hneg]
    have q2 : idMats b c k = c.raw.nmmat := by unfold idMats; rw [if_neg hneg]
    have q3 : idNumrbs b k = 0 := by unfold idNumrbs; rw [if_neg hneg]
    rw [bind_ok (pure_eq _ _)]
    simp only
    rw [bind_ok (hasErr_at g h)]
    simp only [Bool.false_eq_true, and_false, if_false]
    exact fin t 10 c.raw.nmmat 0 q1 q2 q3 h

theorem readExtraConnectivity_at {b : Buf} (g : Good b) {c : Cda} {k : Nat} {s : S} (h : At b k s)
    (hw : k + extraConnectivity c < words b) :
    ∃ s', readExtraConnectivity c s = .ok ((), s') ∧ At b (k + extraConnectivity c) s' := by
  have hws := words_small g
  unfold readExtraConnectivity
  rw [Nat.mod_eq_of_lt (by unfold u64; omega)]
  obtain ⟨t, e, h⟩ := skip_at g h hw
  rw [bind_ok e, bind_ok (hasErr_at g h)]
  exact ⟨t, rfl, h⟩

theorem readAdapted_at {b : Buf} (g : Good b) {c : Cda} {k : Nat} {s : S} (h : At b k s)
    (hw : k + 2 * c.raw.nadapt < words b) :
    ∃ s', readAdapted c s = .ok ((), s') ∧ At b (k + 2 * c.raw.nadapt) s' := by
  have hws := words_small g
  unfold readAdapted
  by_cases hn : c.raw.nadapt = 0
  · rw [if_pos hn]
    refine ⟨s, rfl, ?_⟩
    rw [hn]
    exact h
  · rw [if_neg hn, Nat.mod_eq_of_lt (by unfold u64; omega)]
    obtain ⟨t, e, h⟩ := skip_at g h hw
    rw [bind_ok e, bind_ok (hasErr_at g h)]
    exact ⟨t, rfl, h⟩

/-! ## Header -/

/-- The part behind the geometry: any number of blocks up to the end marker. `n` is the number of
words of the content of a block. Part of the specification, models no code. -/
inductive Blocks (b : Buf) : Nat → Ptrs → Nat → Ptrs → Prop
  | finish {k d} : wordBytes b k = eofBytes b.ws → Blocks b k d (k + 1) d
  | title {k d e d' n} : wordAt b k = 90000 → n = 72 / b.ws →
      Blocks b (k + 1 + n) d e d' → Blocks b k d e d'
  | parts {k d e d' n} : wordAt b k = 90001 → n = (b.ws + 72) * wordAt b (k + 1) / b.ws →
      Blocks b (k + 2 + n) { d with partTitles := k + 2 } e d' → Blocks b k d e d'
  | contacts {k d e d' n} : wordAt b k = 90002 → n = (b.ws + 72) * wordAt b (k + 1) / b.ws →
      Blocks b (k + 2 + n) d e d' → Blocks b k d e d'
  | keywords {k d e d' n} : wordAt b k = 900100 → n = 80 * wordAt b (k + 1) / b.ws →
      Blocks b (k + 2 + n) d e d' → Blocks b k d e d'

theorem Blocks.lt {b : Buf} {k e : Nat} {d d' : Ptrs} (h : Blocks b k d e d') : k < e := by
  induction h with
  | finish => omega
  | title _ _ _ ih => omega
  | parts _ _ _ ih => omega
  | contacts _ _ _ ih => omega
  | keywords _ _ _ ih => omega

theorem wordAt_eq (b : Buf) (k : Nat) : wordAt b k = leNat (wordBytes b k) := rfl

theorem skipB_at {b : Buf} (g : Good b) {k n m : Nat} {s : S} (h : At b k s) (hm : m = n / b.ws)
    (hk : k + m < words b) :
    ∃ s', skipB n s = .ok ((), s') ∧ At b (k + m) s' := by
  unfold skipB
  subst hm
  rw [h.1]
  exact skip_at g h hk

theorem no_wrap {b : Buf} (g : Good b) {k n m : Nat} (hm : m = n / b.ws) (h : k + m < words b) :
    n % u64 = n := by
  subst hm
  have h1 := (lt_words g).1 h
  have h2 := g.size
  have h3 : n < (n / b.ws + 1) * b.ws := by
    rw [Nat.mul_comm]; exact Nat.lt_mul_div_succ n g.ws
  rw [Nat.add_mul] at h1 h3
  have h4 := g.ws8
  exact Nat.mod_eq_of_lt (by unfold u64; omega)

theorem readHeader_at {b : Buf} (g : Good b) {k e : Nat} {d d' : Ptrs} (hb : Blocks b k d e d') :
    ∀ {s : S} {fuel : Nat}, At b k s → e ≤ words b → e ≤ k + fuel →
      ∃ s', readHeader d fuel s = .ok (d', s') ∧ Behind b e s' := by
  have hread : ∀ (k : Nat) (s : S), At b k s → k < words b →
      ∃ s', rdBytes 1 s = .ok (wordBytes b k, s') ∧ Behind b (k + 1) s' := by
    intro k s h hk
    obtain ⟨t, e, h⟩ := rdBytes_at g h hk Nat.zero_lt_one
    rw [Nat.one_mul] at e
    exact ⟨t, e, h⟩
  induction hb with
  | @finish k d hw =>
    intro s fuel h he hf
    obtain ⟨fuel, rfl⟩ : ∃ f, fuel = f + 1 := ⟨fuel - 1, by omega⟩
    unfold readHeader
    obtain ⟨t, r, h'⟩ := hread k s h (by omega)
    rw [bind_ok (wordSize_at h), bind_ok r, bind_ok (hasErr_at g h'.at)]
    simp only [Bool.false_eq_true, if_false]
    have hws : b.ws = 4 ∨ b.ws ≠ 4 := by omega
    have hne : leNat (wordBytes b k) ≠ 90000 ∧ leNat (wordBytes b k) ≠ 90001 ∧
        leNat (wordBytes b k) ≠ 90002 ∧ leNat (wordBytes b k) ≠ 900100 := by
      rw [hw]
      unfold eofBytes
      split <;> decide
    rw [if_neg hne.1, if_neg hne.2.1, if_neg hne.2.2.1, if_neg hne.2.2.2, if_pos hw]
    exact ⟨t, rfl, h'⟩
  | @title k d e d' n hw hn hb ih =>
    intro s fuel h he hf
    have hlt := hb.lt
    obtain ⟨fuel, rfl⟩ : ∃ f, fuel = f + 1 := ⟨fuel - 1, by omega⟩
    unfold readHeader
    obtain ⟨t, r, h'⟩ := hread k s h (by omega)
    rw [bind_ok (wordSize_at h), bind_ok r, bind_ok (hasErr_at g h'.at)]
    simp only [Bool.false_eq_true, if_false]
    rw [wordAt_eq] at hw
    rw [if_pos hw]
    obtain ⟨t, r, h'⟩ := skipB_at g h'.at (n := 72) hn (by omega)
    rw [bind_ok r, bind_ok (hasErr_at g h')]
    simp only [Bool.false_eq_true, if_false]
    exact ih h' he (by omega)
  | @parts k d e d' n hw hn hb ih =>
    intro s fuel h he hf
    have hlt := hb.lt
    obtain ⟨fuel, rfl⟩ : ∃ f, fuel = f + 1 := ⟨fuel - 1, by omega⟩
    unfold readHeader
    obtain ⟨t, r, h'⟩ := hread k s h (by omega)
    rw [bind_ok (wordSize_at h), bind_ok r, bind_ok (hasErr_at g h'.at)]
    simp only [Bool.false_eq_true, if_false]
    rw [wordAt_eq] at hw
    rw [if_neg (by omega), if_pos hw]
    obtain ⟨t, r, h'⟩ := rd_at g h'.at (by omega)
    rw [bind_ok r, bind_ok (hasErr_at g h'.at)]
    simp only [Bool.false_eq_true, if_false]
    rw [bind_ok (curWord_at h'.at), no_wrap g (k := k + 2) hn (by omega)]
    obtain ⟨t, r, h'⟩ := skipB_at g h'.at (n := (b.ws + 72) * wordAt b (k + 1)) hn (by omega)
    rw [bind_ok r, bind_ok (hasErr_at g h')]
    simp only [Bool.false_eq_true, if_false]
    exact ih h' he (by omega)
  | @contacts k d e d' n hw hn hb ih =>
    intro s fuel h he hf
    have hlt := hb.lt
    obtain ⟨fuel, rfl⟩ : ∃ f, fuel = f + 1 := ⟨fuel - 1, by omega⟩
    unfold readHeader
    obtain ⟨t, r, h'⟩ := hread k s h (by omega)
    rw [bind_ok (wordSize_at h), bind_ok r, bind_ok (hasErr_at g h'.at)]
    simp only [Bool.false_eq_true, if_false]
    rw [wordAt_eq] at hw
    rw [if_neg (by omega), if_neg (by omega), if_pos hw]
    obtain ⟨t, r, h'⟩ := rd_at g h'.at (by omega)
    rw [bind_ok r, bind_ok (hasErr_at g h'.at)]
    simp only [Bool.false_eq_true, if_false]
    rw [no_wrap g (k := k + 2) hn (by omega)]
    obtain ⟨t, r, h'⟩ := skipB_at g h'.at (n := (b.ws + 72) * wordAt b (k + 1)) hn (by omega)
    rw [bind_ok r, bind_ok (hasErr_at g h')]
    simp only [Bool.false_eq_true, if_false]
    exact ih h' he (by omega)
  | @keywords k d e d' n hw hn hb ih =>
    intro s fuel h he hf
    have hlt := hb.lt
    obtain ⟨fuel, rfl⟩ : ∃ f, fuel = f + 1 := ⟨fuel - 1, by omega⟩
    unfold readHeader
    obtain ⟨t, r, h'⟩ := hread k s h (by omega)
    rw [bind_ok (wordSize_at h), bind_ok r, bind_ok (hasErr_at g h'.at)]
    simp only [Bool.false_eq_true, if_false]
    rw [wordAt_eq] at hw
    rw [if_neg (by omega), if_neg (by omega), if_neg (by omega), if_pos hw]
    obtain ⟨t, r, h'⟩ := rd_at g h'.at (by omega)
    rw [bind_ok r, bind_ok (hasErr_at g h'.at)]
    simp only [Bool.false_eq_true, if_false]
    rw [no_wrap g (k := k + 2) hn (by omega)]
    obtain ⟨t, r, h'⟩ := skipB_at g h'.at (n := 80 * wordAt b (k + 1)) hn (by omega)
    rw [bind_ok r, bind_ok (hasErr_at g h')]
    simp only [Bool.false_eq_true, if_false]
    exact ih h' he (by omega)

end Dyna.D3
