import Verif.CppState
import Verif.Props.D3Mean
import Verif.Props.CppArray
/-!
# C100: accessors of the C++ classes for element states
-/

namespace Dyna.CppState

open Dyna D3 Cpp

/-- Specification: the array consists of exactly the values `vs`: this is its size, a loop over it visits them, `operator[]` gives them and
throws for every other index. -/
structure Shows {α : Type} (a : Arr α) (vs : List α) : Prop where
  size : a.size = vs.length
  loop : a.iter = .ok vs
  get : ∀ k, (h : k < vs.length) → a.at k = .ok vs[k]
  throws : ∀ k, vs.length ≤ k → a.at k = .err

/-- Specification: an accessor gives an array of exactly these values. -/
def Gives {α : Type} (r : Got α) (vs : List α) : Prop := ∃ a, r = .ok (.ok a) ∧ Shows a vs

/-- Specification: an accessor throws an exception with this text. -/
def Throws {α : Type} (r : Got α) (msg : String) : Prop := r = .ok (.error (bs msg))

theorem shows_mk {α : Type} (vs : List α) {n : Nat} (hn : n = vs.length) (h : vs.length < u64) : Shows (Arr.mk vs n) vs := by
  subst hn
  have hat := fun k => c54_array_at vs [] k h
  have hit := c54_array_iter vs []
  rw [List.append_nil] at hit
  refine ⟨rfl, hit, fun k hk => ?_, fun k hk => ?_⟩
  · have := (hat k).1 hk
    rwa [List.append_nil] at this
  · have := (hat k).2 hk
    rwa [List.append_nil] at this

theorem historyOf_gives {hist : Nat} {ip : Surface} (h : hist ≤ 255) (hl : ip.history.length = hist) :
    Gives (historyOf hist (some ip)) ip.history :=
  ⟨_, rfl, shows_mk _ (by omega) (by unfold u64; omega)⟩

theorem bs_append (a b : String) : bs (a ++ b) = bs a ++ bs b := by simp [bs]

theorem badIndex_add (i n : Nat) : badIndex "additional integration points" i n =
    bs s!"{i} is an invalid index for additional integration points ({i} >= {n})" := by
  unfold badIndex
  rw [← bs_append, ← bs_append, ← bs_append, ← bs_append, ← bs_append, ← bs_append, ← bs_append]
  congr 1
  simp [String.append_assoc]
  try rfl

theorem badIndex_beam (i n : Nat) : badIndex "integration points" i n =
    bs s!"{i} is an invalid index for integration points ({i} >= {n})" := by
  unfold badIndex
  rw [← bs_append, ← bs_append, ← bs_append, ← bs_append, ← bs_append, ← bs_append, ← bs_append]
  congr 1
  simp [String.append_assoc]
  try rfl

theorem points_lt (c : Cda) : points c < 256 := by
  unfold points
  omega

theorem neips_le {c : Cda} (h : derive c.raw c.ext = .ok c) : c.raw.neips ≤ 255 := by
  obtain ⟨_, _, _, _, _, _, _, _, _, _, _, h7, _⟩ := derive_inv h
  exact h7

/-- Specification: the history variables of an integration point whose values start at position `o`: behind the stress and the plastic
strain, if they are in the file. -/
def historyAt (c : Cda) (data : List Nat) (o : Nat) : List Nat :=
  slice data (o + wordsIf (c.ioshl.1 ≠ 0) 6 + wordsIf (c.ioshl.2.1 ≠ 0) 1) c.raw.neips

theorem surface_gives {c : Cda} (hc : c.raw.neips ≤ 255) {data : List Nat} {o : Nat} (h : o + surfaceWords c ≤ data.length) :
    Gives (historyOf c.raw.neips (some (surfaceAt c data o))) (historyAt c data o) :=
  historyOf_gives hc (surfaceAt_complete c data o h).history

theorem add_get {f : Nat → Surface} {n i : Nat} (h : i < n) : ((List.range n).map f)[i]? = some (f i) := by
  simp [h]

/-- **C100** for shells: for every shell of a file whose control data has been accepted, with at least three integration points, the arrays of
the accessors show exactly the history variables that the file has for the integration point, and every index that is not an additional
integration point is answered with an exception. -/
theorem c100_shells {p : Plot} (g : Good p.buf) (hd : derive p.cda.raw p.cda.ext = .ok p.cda) {state s i : Nat}
    (hs : p.states[state]? = some s) (hi : p.cda.istrn = some i) (hn : p.cda.raw.nel4 ≠ 0)
    (hin : InFile p s p.ptrs.stShell p.cda.raw.nel4 p.cda.raw.nv2d)
    (hw : shellWords p.cda i = p.cda.raw.nv2d) (h3 : 3 ≤ points p.cda) :
    ∃ l, readShellsState p state = .ok (p, some l) ∧ l.length = p.cda.raw.nel4 ∧
    ∀ (e : Nat) (sh : Shell), l[e]? = some sh →
      let data := valuesAt p s p.ptrs.stShell p.cda.raw.nel4 p.cda.raw.nv2d
      let start := fun j => e * p.cda.raw.nv2d + j * surfaceWords p.cda
      let hist := fun j => historyAt p.cda data (start j)
      Gives (midHistory p.cda.raw.neips sh) (hist 0) ∧ Gives (innerHistory p.cda.raw.neips sh) (hist 1) ∧
      Gives (outerHistory p.cda.raw.neips sh) (hist 2) ∧
      (∀ k, k + 3 < points p.cda → Gives (shellAddHistory p.cda.raw.neips sh k) (hist (k + 3))) ∧
      (∀ k, points p.cda ≤ k + 3 → Throws (shellAddHistory p.cda.raw.neips sh k)
        s!"{k} is an invalid index for additional integration points ({k} >= {points p.cda - 3})") ∧
      Shows (addIps sh) ((List.range (points p.cda - 3)).map fun k => surfaceAt p.cda data (start (k + 3))) := by
  obtain ⟨l, e1, e2, hl⟩ := c39_shell_points g hs hi hn hin hw
  refine ⟨l, e1, e2, fun e sh he => ?_⟩
  obtain ⟨h0, h1, h2, ha, hnum, _⟩ := hl e sh he
  have hc := neips_le hd
  have hp := points_lt p.cda
  have hnum : sh.numAdditional = points p.cda - 3 := by
    rw [hnum h3, ha]
    simp
  have he' : e < p.cda.raw.nel4 := by
    have := (List.getElem?_eq_some_iff.1 he).1
    omega
  have hlen : ∀ j, j < points p.cda → e * p.cda.raw.nv2d + j * surfaceWords p.cda + surfaceWords p.cda ≤
      (valuesAt p s p.ptrs.stShell p.cda.raw.nel4 p.cda.raw.nv2d).length := by
    intro j hj
    unfold valuesAt
    rw [wordsFrom_length]
    unfold shellWords at hw
    have := block_inside (x := 0) he' hj (w := surfaceWords p.cda) (nv := p.cda.raw.nv2d) (by omega)
    omega
  refine ⟨?_, ?_, ?_, fun k hk => ?_, fun k hk => ?_, ?_⟩
  · unfold midHistory
    rw [h0 (by omega)]
    exact surface_gives hc (hlen 0 (by omega))
  · unfold innerHistory
    rw [h1 (by omega)]
    exact surface_gives hc (hlen 1 (by omega))
  · unfold outerHistory
    rw [h2 (by omega)]
    exact surface_gives hc (hlen 2 (by omega))
  · unfold shellAddHistory
    rw [if_neg (by omega), ha, add_get (by omega)]
    exact surface_gives hc (hlen (k + 3) hk)
  · unfold shellAddHistory Throws
    rw [if_pos (by omega), badIndex_add, hnum]
  · unfold addIps
    rw [ha]
    exact shows_mk _ (by simp [hnum]) (by simp; unfold u64; omega)

/-- **C100** for thick shells. With more than three points there are no history variables (`c38_thick_overflow`). The index is a `uint8_t`. -/
theorem c100_thick_shells_partial {p : Plot} (g : Good p.buf) (hd : derive p.cda.raw p.cda.ext = .ok p.cda) {state s i : Nat}
    (hs : p.states[state]? = some s) (hi : p.cda.istrn = some i) (hn : p.cda.raw.nelt ≠ 0)
    (hin : InFile p s p.ptrs.stThick p.cda.raw.nelt p.cda.raw.nv3dt)
    (hw : thickWords p.cda i = p.cda.raw.nv3dt) (hh : p.cda.raw.neips = 0 ∨ points p.cda ≤ 3) (h3 : 3 ≤ points p.cda) :
    ∃ l, readThickState p state = .ok (p, some l) ∧ l.length = p.cda.raw.nelt ∧
    ∀ (e : Nat) (sh : Shell), l[e]? = some sh →
      let data := valuesAt p s p.ptrs.stThick p.cda.raw.nelt p.cda.raw.nv3dt
      let start := fun j => e * p.cda.raw.nv3dt + j * surfaceWords p.cda + wordsIf (i = 1 ∧ 3 ≤ j) 12
      let hist := fun j => historyAt p.cda data (start j)
      Gives (midHistory p.cda.raw.neips sh) (hist 0) ∧ Gives (innerHistory p.cda.raw.neips sh) (hist 1) ∧
      Gives (outerHistory p.cda.raw.neips sh) (hist 2) ∧
      (∀ k, k + 3 < points p.cda → Gives (thickAddHistory p.cda.raw.neips sh k) (hist (k + 3))) ∧
      (∀ k < 256, points p.cda ≤ k + 3 → Throws (thickAddHistory p.cda.raw.neips sh k)
        s!"{k} is an invalid index for additional integration points ({k} >= {points p.cda - 3})") ∧
      Shows (addIps sh) ((List.range (points p.cda - 3)).map fun k => surfaceAt p.cda data (start (k + 3))) := by
  obtain ⟨l, e1, e2, hl⟩ := c39_thick_points g hs hi hn hin hw hh
  refine ⟨l, e1, e2, fun e sh he => ?_⟩
  obtain ⟨h0, h1, h2, ha, hnum, _⟩ := hl e sh he
  have hc := neips_le hd
  have hp := points_lt p.cda
  have hnum : sh.numAdditional = points p.cda - 3 := by
    rw [hnum h3, ha]
    simp
  have he' : e < p.cda.raw.nelt := by
    have := (List.getElem?_eq_some_iff.1 he).1
    omega
  have hlen : ∀ j, j < points p.cda →
      e * p.cda.raw.nv3dt + j * surfaceWords p.cda + wordsIf (i = 1 ∧ 3 ≤ j) 12 + surfaceWords p.cda ≤
      (valuesAt p s p.ptrs.stThick p.cda.raw.nelt p.cda.raw.nv3dt).length := by
    intro j hj
    unfold valuesAt
    rw [wordsFrom_length]
    unfold thickWords at hw
    have hle : wordsIf (decide (i = 1 ∧ 3 ≤ j)) 12 ≤ wordsIf (decide (i = 1 ∧ 3 ≤ points p.cda)) 12 := by
      unfold wordsIf
      by_cases h : i = 1
      · simp only [h, h3, true_and, and_self, decide_true, if_true]
        split <;> omega
      · simp [h]
    exact block_inside he' hj (by omega)
  refine ⟨?_, ?_, ?_, fun k hk => ?_, fun k h256 hk => ?_, ?_⟩
  · unfold midHistory
    rw [h0 (by omega)]
    exact surface_gives hc (hlen 0 (by omega))
  · unfold innerHistory
    rw [h1 (by omega)]
    exact surface_gives hc (hlen 1 (by omega))
  · unfold outerHistory
    rw [h2 (by omega)]
    exact surface_gives hc (hlen 2 (by omega))
  · unfold thickAddHistory
    dsimp only
    rw [Nat.mod_eq_of_lt (by omega), if_neg (by omega), ha, add_get (by omega)]
    exact surface_gives hc (hlen (k + 3) hk)
  · unfold thickAddHistory Throws
    dsimp only
    rw [Nat.mod_eq_of_lt h256, if_pos (by omega), badIndex_add, hnum]
  · unfold addIps
    rw [ha]
    exact shows_mk _ (by simp [hnum]) (by simp; unfold u64; omega)

/-- All accessors of a beam with complete values, as the function reads them. -/
theorem beam_accessors {c : Cda} {b : Beam} {data : List Nat} {o : Nat} (hb : b = beamAt c data o) (h1 : c.ext.neipb ≤ 255)
    (h2 : c.beamip ≤ 255) (hl : o + beamWords c ≤ data.length) :
    Shows (beamAverage c.ext.neipb b) (slice data (o + 6 + 5 * c.beamip) c.ext.neipb) ∧
    Shows (beamMin c.ext.neipb b) (slice data (o + 6 + 5 * c.beamip + c.ext.neipb) c.ext.neipb) ∧
    Shows (beamMax c.ext.neipb b) (slice data (o + 6 + 5 * c.beamip + 2 * c.ext.neipb) c.ext.neipb) ∧
    Shows (beamPoints c.beamip b) ((List.range c.beamip).map (beamPointAt c data o)) ∧
    (∀ k < c.beamip, Gives (beamHistory c.ext.neipb c.beamip b k)
      (slice data (o + 6 + 5 * c.beamip + (3 + k) * c.ext.neipb) c.ext.neipb)) ∧
    (∀ k < 256, c.beamip ≤ k → Throws (beamHistory c.ext.neipb c.beamip b k)
      s!"{k} is an invalid index for integration points ({k} >= {c.beamip})") := by
  subst hb
  unfold beamWords at hl
  have slen : ∀ q, q + c.ext.neipb ≤ data.length → (slice data q c.ext.neipb).length = c.ext.neipb := by
    intro q hq
    unfold slice
    simp
    omega
  have sh : ∀ q, q + c.ext.neipb ≤ data.length → Shows (Arr.mk (slice data q c.ext.neipb) (c.ext.neipb % 256)) (slice data q c.ext.neipb) :=
    fun q hq => shows_mk _ (by rw [slen q hq]; omega) (by rw [slen q hq]; unfold u64; omega)
  refine ⟨sh _ (by omega), sh _ (by omega), sh _ (by omega), ?_, fun k hk => ?_, fun k h256 hk => ?_⟩
  · exact shows_mk _ (by simp [beamAt]; omega) (by simp [beamAt]; unfold u64; omega)
  · unfold beamHistory
    dsimp only
    have hg : (beamAt c data o).points[k]? = some (beamPointAt c data o k) := by simp [beamAt, hk]
    rw [Nat.mod_eq_of_lt (by omega), Nat.mod_eq_of_lt (a := c.beamip) (by omega), if_neg (by omega), hg]
    have h5 : (k + 1) * c.ext.neipb ≤ c.beamip * c.ext.neipb := Nat.mul_le_mul_right _ hk
    rw [Nat.succ_mul] at h5
    have := sh (o + 6 + 5 * c.beamip + 3 * c.ext.neipb + k * c.ext.neipb) (by omega)
    rw [show o + 6 + 5 * c.beamip + (3 + k) * c.ext.neipb = o + 6 + 5 * c.beamip + 3 * c.ext.neipb + k * c.ext.neipb by
      rw [Nat.add_mul]; omega]
    exact ⟨_, rfl, this⟩
  · unfold beamHistory Throws
    dsimp only
    rw [Nat.mod_eq_of_lt h256, Nat.mod_eq_of_lt (a := c.beamip) (by omega), if_pos (by omega), badIndex_beam]

/-- **C100** for beams. The index is a `uint8_t`; the function of the C++ API returns `d3plot_beam`, the class with the accessors has the same
members. -/
theorem c100_beams_partial {p : Plot} (g : Good p.buf) (hd : derive p.cda.raw p.cda.ext = .ok p.cda) {state s : Nat}
    (hs : p.states[state]? = some s) (hn : p.cda.raw.nel2 ≠ 0) (h64 : p.cda.raw.nv1d < u64)
    (hin : InFile p s p.ptrs.stBeam p.cda.raw.nel2 p.cda.raw.nv1d)
    (h1 : p.cda.ext.neipb ≤ 255) (h2 : p.cda.beamip ≤ 255) (hw : beamWords p.cda = p.cda.raw.nv1d) :
    ∃ l, readBeamsState p state = .ok (p, some l) ∧ l.length = p.cda.raw.nel2 ∧
    ∀ (e : Nat) (b : Beam), l[e]? = some b →
      let data := valuesAt p s p.ptrs.stBeam p.cda.raw.nel2 p.cda.raw.nv1d
      let hist := fun j => slice data (e * p.cda.raw.nv1d + 6 + 5 * p.cda.beamip + j * p.cda.ext.neipb) p.cda.ext.neipb
      Shows (beamAverage p.cda.ext.neipb b) (hist 0) ∧ Shows (beamMin p.cda.ext.neipb b) (hist 1) ∧
      Shows (beamMax p.cda.ext.neipb b) (hist 2) ∧
      Shows (beamPoints p.cda.beamip b) ((List.range p.cda.beamip).map (beamPointAt p.cda data (e * p.cda.raw.nv1d))) ∧
      (∀ k < p.cda.beamip, Gives (beamHistory p.cda.ext.neipb p.cda.beamip b k) (hist (3 + k))) ∧
      (∀ k < 256, p.cda.beamip ≤ k → Throws (beamHistory p.cda.ext.neipb p.cda.beamip b k)
        s!"{k} is an invalid index for integration points ({k} >= {p.cda.beamip})") := by
  refine ⟨_, by rw [c38_beams g hs hd hn h64 hin, if_pos ⟨h1, h2, hw⟩], by simp, fun e b he => ?_⟩
  obtain ⟨he1, he2⟩ := List.getElem?_eq_some_iff.1 he
  simp only [List.length_map, List.length_range] at he1
  simp only [List.getElem_map, List.getElem_range] at he2
  have hl : e * p.cda.raw.nv1d + beamWords p.cda ≤ (valuesAt p s p.ptrs.stBeam p.cda.raw.nel2 p.cda.raw.nv1d).length := by
    unfold valuesAt
    rw [wordsFrom_length, hw]
    have := Nat.mul_le_mul_right p.cda.raw.nv1d (show e + 1 ≤ p.cda.raw.nel2 by omega)
    rw [Nat.succ_mul] at this
    omega
  have := beam_accessors he2.symm h1 h2 hl
  simpa only [Nat.zero_mul, Nat.one_mul, Nat.add_zero] using this

/-- **C100**, mean values: the array has one value for every history variable, the mean over all points of the element. -/
theorem c100_mean {α : Type} (A : Arith α) {hist : Nat} {sh : Shell} {a b d : Surface} (h0 : sh.mid = some a) (h1 : sh.inner = some b)
    (h2 : sh.outer = some d) (hn : sh.numAdditional = sh.add.length) (hc : ∀ s ∈ a :: b :: d :: sh.add, s.Complete hist) (hh : hist ≤ 255) :
    ∃ r vs, meanHistory A hist sh = .ok r ∧ Shows r vs ∧ vs.length = hist ∧
      ∀ k < hist, ∃ ws, (a :: b :: d :: sh.add).mapM (fun s : Surface => s.history[k]?) = some ws ∧ vs[k]? = some (A.mean ws) := by
  obtain ⟨m, e, _, _, hm, hv⟩ := c78_mean A h0 h1 h2 hn hc
  refine ⟨⟨m.history, hist⟩, m.history, ?_, shows_mk _ hm.symm (by unfold u64; omega), hm, fun k hk => ?_⟩
  · unfold meanHistory
    rw [Nat.mod_eq_of_lt (by omega), e]
    rfl
  · obtain ⟨ws, e1, e2⟩ := hv (7 + k) (by omega)
    refine ⟨ws, ?_, ?_⟩
    · rw [← e1]
      congr 1
      funext s
      unfold Surface.value
      rw [if_neg (by omega), if_neg (by omega), Nat.add_sub_cancel_left]
    · rw [← e2]
      unfold MeanSurface.value
      rw [if_neg (by omega), if_neg (by omega), Nat.add_sub_cancel_left]

/-- C100 is violated for thick shells: the argument is reduced modulo 256, so an index that is far too large is taken for a small one. -/
theorem c100_thick_index_wraps (hist : Nat) (sh : Shell) (k : Nat) : thickAddHistory hist sh (k + 256) = thickAddHistory hist sh k := by
  unfold thickAddHistory
  rw [Nat.add_mod_right]

/-- The same for beams. -/
theorem c100_beam_index_wraps (hist n : Nat) (b : Beam) (k : Nat) : beamHistory hist n b (k + 256) = beamHistory hist n b k := by
  unfold beamHistory
  rw [Nat.add_mod_right]

/-- C100 is violated for elements with less than three points: there the number of additional points is 253 or more although there are none,
and an index below it reads through a pointer that leads nowhere. -/
theorem c100_too_few_points (hist : Nat) (sh : Shell) (h : sh.add = []) {k : Nat} (hk : k < sh.numAdditional) :
    shellAddHistory hist sh k = .ub := by
  unfold shellAddHistory
  rw [if_neg (by omega), h]
  rfl

/-- Not vacuous: two shells of four points with one history variable. -/
theorem c100_shells_sample : ∃ p, openPlot (elementFiles [(31, 2), (33, 32), (35, 1), (36, 4), (43, 1000), (44, 1000)] (List.replicate 10 1) 64) =
      .ok p ∧ Good p.buf ∧ derive p.cda.raw p.cda.ext = .ok p.cda ∧ p.states.length = 1 ∧ p.cda.istrn = some 0 ∧ points p.cda = 4 ∧
    shellWords p.cda 0 = p.cda.raw.nv2d ∧ p.cda.raw.nel4 = 2 ∧ p.cda.raw.neips = 1 ∧
    InFile p (p.states.headD 0) p.ptrs.stShell p.cda.raw.nel4 p.cda.raw.nv2d := by
  obtain ⟨p, h1, h2⟩ := Res.is_iff
    (r := openPlot (elementFiles [(31, 2), (33, 32), (35, 1), (36, 4), (43, 1000), (44, 1000)] (List.replicate 10 1) 64))
    (f := fun p => decide (p.buf.err = false ∧ 0 < p.buf.ws ∧ p.buf.ws ≤ 8 ∧ p.buf.bytes.length < 2 ^ 63) &&
      (p.buf.files.all fun f => f.length % p.buf.ws == 0) && decide (derive p.cda.raw p.cda.ext = .ok p.cda ∧ p.states.length = 1 ∧ p.cda.istrn = some 0 ∧ points p.cda = 4 ∧
      shellWords p.cda 0 = p.cda.raw.nv2d ∧
      p.cda.raw.nel4 = 2 ∧ p.cda.raw.neips = 1 ∧ (p.states.headD 0) + p.ptrs.stShell < words p.buf ∧
      (p.states.headD 0) + p.ptrs.stShell + p.cda.raw.nel4 * p.cda.raw.nv2d ≤ words p.buf)) (by decide +kernel)
  simp only [Bool.and_eq_true, decide_eq_true_eq, List.all_eq_true, beq_iff_eq] at h2
  obtain ⟨⟨⟨b1, b2, b3, b4⟩, b5⟩, a0, a1, a2, a3, a4, a5, a6, a7⟩ := h2
  exact ⟨p, h1, ⟨b1, b2, b3, b4, fun f hf => Nat.dvd_of_mod_eq_zero (b5 f hf)⟩, a0, a1, a2, a3, a4, a5, a6, a7⟩

/-- What the accessors give for the second of these shells: its last point, and an index that is too large. -/
example : ∃ p, openPlot (elementFiles [(31, 2), (33, 32), (35, 1), (36, 4), (43, 1000), (44, 1000)] (List.replicate 10 1) 64) = .ok p ∧
    ∃ a b, readShellsState p 0 = .ok (p, some [a, b]) ∧ shellAddHistory 1 b 0 = .ok (.ok ⟨[63], 1⟩) ∧
      shellAddHistory 1 b 1 = .ok (.error (bs "1 is an invalid index for additional integration points (1 >= 1)")) := by
  obtain ⟨p, h1, h2⟩ := Res.is_iff
    (r := openPlot (elementFiles [(31, 2), (33, 32), (35, 1), (36, 4), (43, 1000), (44, 1000)] (List.replicate 10 1) 64)) (f := fun p =>
    match readShellsState p 0 with
    | .ok (q, some [_, b]) => decide (q = p ∧ b.point 3 = some ⟨[56, 57, 58, 59, 60, 61], [62], [63]⟩ ∧ b.numAdditional = 1)
    | _ => false) (by decide +kernel)
  refine ⟨p, h1, ?_⟩
  split at h2
  · rename_i q a b h
    obtain ⟨rfl, hb, hn⟩ := of_decide_eq_true h2
    refine ⟨a, b, h, ?_, ?_⟩
    · unfold shellAddHistory
      rw [if_neg (by omega), show b.add[0]? = _ from hb]
      rfl
    · unfold shellAddHistory
      rw [if_pos (by omega), hn]
      rfl
  · cases h2

end Dyna.CppState
