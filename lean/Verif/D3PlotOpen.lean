import Verif.D3PlotStates
/-!
# Opening a well formed family
-/

namespace Dyna.D3

/-- First word behind the control data. Part of the specification, models no code. -/
def geoStart (b : Buf) : Nat := 64 + wordAt b 57 + partWords (extOf b)

/-- Pointers and NUMRBS after the ids. Part of the specification, models no code. -/
def ptrsIds (b : Buf) (c : Cda) : Ptrs :=
  let d := geoPtrs c (geoStart b) {}
  if c.raw.narbs = 0 then d else idPtrs b c (geoStart b + geoLen c) d
/-- Part of the specification, models no code. -/
def numrbsOf (b : Buf) (c : Cda) : Nat :=
  if c.raw.narbs = 0 then 0 else idNumrbs b (geoStart b + geoLen c)

/-- First word of the header blocks. Part of the specification, models no code. -/
def eofPos (b : Buf) (c : Cda) : Nat :=
  geoStart b + geoLen c + c.raw.narbs + extraConnectivity c + 2 * c.raw.nadapt

theorem readBody_at {b : Buf} (g : Good b) {c : Cda} {header : Bytes} {stateFiles : List Bytes}
    (hfiles : b.files = header :: stateFiles) (hne : stateFiles ≠ []) {ns : List Nat}
    (hlen : stateFiles.length = ns.length) (hpacked : c.packed = false)
    (ok : StateOk c (numrbsOf b c)) (hids : c.raw.narbs = 0 ∨ IdsOk b c (geoStart b + geoLen c))
    (heof : wordBytes b (eofPos b c) = eofBytes b.ws) {e : Nat} {d : Ptrs}
    (hblocks : Blocks b (eofPos b c + 1) (ptrsIds b c) e d) (he : e * b.ws ≤ header.length)
    (hcfd : c.raw.ncfdv1 ≠ 67108864)
    (hst : ∀ (j : Nat) (f : Bytes) (n : Nat), stateFiles[j]? = some f → ns[j]? = some n →
      StateFile b.ws (stateLen c) f n)
    {fuel : Nat} (hfuel : ns.sum + ns.length ≤ fuel) (hfuel' : e ≤ fuel) {s : S} (h : At b (geoStart b) s) :
    ∃ s', readBody fuel c s = .ok ((numrbsOf b c,
        ptrsAfter c d [] (starts b.ws (stateLen c) (header.length / b.ws) stateFiles ns),
        starts b.ws (stateLen c) (header.length / b.ws) stateFiles ns), s') ∧ s'.b = b := by
  have hbl := hblocks.lt
  have hew : e ≤ words b := by
    rw [le_words g]
    unfold Buf.bytes
    rw [hfiles, List.flatten_cons, List.length_append]
    omega
  have hx : eofPos b c = geoStart b + geoLen c + c.raw.narbs + extraConnectivity c + 2 * c.raw.nadapt := rfl
  unfold readBody
  obtain ⟨t, r, h⟩ := readGeometry_at g (d := {}) h hpacked (by omega)
  rw [bind_ok r]
  clear r
  have hids' : ∃ s', readUserIds c (geoPtrs c (geoStart b) {}) t =
      .ok ((ptrsIds b c, numrbsOf b c), s') ∧ At b (geoStart b + geoLen c + c.raw.narbs) s' := by
    unfold ptrsIds numrbsOf
    by_cases hn : c.raw.narbs = 0
    · rw [if_pos hn, if_pos hn]
      refine ⟨t, ?_, ?_⟩
      · unfold readUserIds
        rw [if_pos hn]
        rfl
      · rw [hn]
        exact h
    · rw [if_neg hn, if_neg hn]
      exact readUserIds_at g h hn (hids.resolve_left hn) (by omega)
  obtain ⟨t, r, h⟩ := hids'
  rw [bind_ok r]
  clear r
  simp only
  obtain ⟨t, r, h⟩ := readExtraConnectivity_at g (c := c) h (by omega)
  rw [bind_ok r]
  clear r
  obtain ⟨t, r, h⟩ := readAdapted_at g (c := c) h (by omega)
  rw [bind_ok r, bind_ok (wordSize_at h)]
  clear r
  obtain ⟨t, r, h⟩ := rdBytes_at g h (n := 1) (by omega) Nat.zero_lt_one
  rw [Nat.one_mul] at r
  rw [bind_ok r]
  clear r
  unfold wordBytes eofPos at heof
  rw [if_neg (by simp only [ne_eq, Decidable.not_not]; exact heof)]
  obtain ⟨t, r, h⟩ := readHeader_at g hblocks (fuel := fuel) h.at hew (by omega)
  rw [bind_ok r, if_neg hcfd]
  clear r
  have he0 : 0 < e * b.ws := Nat.mul_pos (by omega) g.ws
  obtain ⟨t, r, hb, h⟩ := toNextFile_at g (pre := []) (f := header) (rest := stateFiles) (by simpa using hfiles)
    h (by simpa using he0) (by simpa using he)
  rw [bind_ok r]
  have hre : stateFiles.isEmpty = false := by cases stateFiles <;> simp_all
  rw [hre]
  simp only [Bool.not_false, Bool.not_true, Bool.false_eq_true, if_false]
  have h := h hne
  obtain ⟨t, r, hb⟩ := readStates_at g ok stateFiles [header] ns (fuel := fuel) (d := d) (states := [])
    (by simpa using hfiles) hne hlen hst h hfuel
  rw [bind_ok r]
  refine ⟨t, ?_, hb⟩
  simp only [List.flatten_cons, List.flatten_nil, List.append_nil, List.nil_append]
  rfl

theorem starts_fuel (ws len : Nat) (hws : 0 < ws) : ∀ (files : List Bytes) (ns : List Nat),
    files.length = ns.length →
    (∀ (j : Nat) (f : Bytes) (n : Nat), files[j]? = some f → ns[j]? = some n → StateFile ws len f n) →
    0 < len → ns.sum ≤ files.flatten.length := by
  intro files
  induction files with
  | nil => intro ns h _ _; cases ns <;> simp_all
  | cons f rest ih =>
    intro ns h hst hl
    cases ns with
    | nil => simp at h
    | cons n ns =>
      have h1 := (hst 0 f n rfl rfl).size
      have h2 := ih ns (by simpa using h)
        (fun j f' n' hj hn => hst (j + 1) f' n' (by simpa using hj) (by simpa using hn)) hl
      have h3 : n ≤ (n * len + 1) * ws := by
        calc n ≤ n * len := Nat.le_mul_of_pos_right _ hl
          _ ≤ n * len + 1 := by omega
          _ ≤ (n * len + 1) * ws := Nat.le_mul_of_pos_right _ hws
      simp only [List.sum_cons, List.flatten_cons, List.length_append]
      omega

/-- Opening a well formed family. -/
theorem openPlot_at {b : Buf} (g : Good b) {c : Cda} {header : Bytes} {stateFiles : List Bytes}
    (hopen : openBuf b.files = .ok b)
    (htype : wordAt b 11 = 1 ∨ wordAt b 11 = 1001)
    (hextra : wordAt b 57 = 0 ∨ 18 ≤ wordAt b 57)
    (hderive : derive (rawAt b) (extOf b) = .ok c) (hsup : supported c = true)
    (hfiles : b.files = header :: stateFiles) (hne : stateFiles ≠ []) {ns : List Nat}
    (hlen : stateFiles.length = ns.length) (hpacked : c.packed = false)
    (ok : StateOk c (numrbsOf b c)) (hids : c.raw.narbs = 0 ∨ IdsOk b c (geoStart b + geoLen c))
    (heof : wordBytes b (eofPos b c) = eofBytes b.ws) {e : Nat} {d : Ptrs}
    (hblocks : Blocks b (eofPos b c + 1) (ptrsIds b c) e d) (he : e * b.ws ≤ header.length)
    (hcfd : c.raw.ncfdv1 ≠ 67108864)
    (hst : ∀ (j : Nat) (f : Bytes) (n : Nat), stateFiles[j]? = some f → ns[j]? = some n →
      StateFile b.ws (stateLen c) f n) :
    openPlot b.files = .ok ⟨c, numrbsOf b c,
      ptrsAfter c d [] (starts b.ws (stateLen c) (header.length / b.ws) stateFiles ns),
      starts b.ws (stateLen c) (header.length / b.ws) stateFiles ns, b⟩ := by
  have hbl := hblocks.lt
  have hew : e ≤ words b := by
    rw [le_words g]
    unfold Buf.bytes
    rw [hfiles, List.flatten_cons, List.length_append]
    omega
  have hx : eofPos b c = geoStart b + geoLen c + c.raw.narbs + extraConnectivity c + 2 * c.raw.nadapt := rfl
  have hgs : geoStart b = 64 + wordAt b 57 + partWords (extOf b) := rfl
  have hws := g.ws
  have hlen0 : 0 < b.bytes.length := by
    have := words_mul g
    have h2 : 0 < words b * b.ws := Nat.mul_pos (by omega) g.ws
    omega
  obtain ⟨q, q1, q2, q3, q4⟩ := seek_inside (b := b) (w := 0) (by unfold u64; omega) (by simpa using hlen0)
  have h0 : At b 0 ⟨b, (seek b 0).2⟩ := ⟨rfl, q, by rw [q1], q2, q3, q4⟩
  have hfuel : ns.sum + ns.length ≤ b.files.flatten.length + b.files.length + 1 := by
    have h1 := starts_fuel b.ws (stateLen c) g.ws stateFiles ns hlen hst (by
      unfold stateLen offDeletion offThick offShell offBeam offSolid offThermal offAcc offVel offCoords
      omega)
    rw [hfiles]
    simp only [List.flatten_cons, List.length_append, List.length_cons]
    omega
  have hfuel' : e ≤ b.files.flatten.length + b.files.length + 1 := by
    have h1 : words b ≤ words b * b.ws := Nat.le_mul_of_pos_right _ g.ws
    rw [words_mul g] at h1
    unfold Buf.bytes at h1
    omega
  obtain ⟨t, e1, h⟩ := skip_at g h0 (n := 10) (by omega)
  obtain ⟨t, e2, h⟩ := skip_at g h (n := 1) (by omega)
  obtain ⟨t, e3, h⟩ := rd_at g h (by omega)
  replace h := h.at
  have hmain : ∃ s', readPlot (b.files.flatten.length + b.files.length + 1) t = .ok ((c, numrbsOf b c,
      ptrsAfter c d [] (starts b.ws (stateLen c) (header.length / b.ws) stateFiles ns),
      starts b.ws (stateLen c) (header.length / b.ws) stateFiles ns), s') ∧ s'.b = b := by
    unfold readPlot
    obtain ⟨t, r, h⟩ := skip_at g h (n := 1) (by omega)
    rw [bind_ok r]
    obtain ⟨t, r, h⟩ := skip_at g h (n := 1) (by omega)
    rw [bind_ok r]
    obtain ⟨t, r, h⟩ := skip_at g h (n := 1) (by omega)
    rw [bind_ok r]
    obtain ⟨t, r, h⟩ := readRaw_at g h (by omega)
    rw [bind_ok r]
    obtain ⟨t, r, h⟩ := readExtra_at g h hextra (by omega)
    have r' : readExtra (rawAt b).extra _ = _ := r
    rw [bind_ok r', bind_ok (hasErr_at g h)]
    simp only [Bool.false_eq_true, if_false]
    rw [hderive]
    simp only [hsup, Bool.not_true, Bool.false_eq_true, if_false]
    obtain ⟨t, r, hb⟩ := readBody_at g hfiles hne hlen hpacked ok hids heof hblocks he hcfd hst
      (fuel := b.files.flatten.length + b.files.length + 1) hfuel hfuel' h
    rw [bind_ok r]
    exact ⟨t, rfl, hb⟩
  obtain ⟨t', r, hb⟩ := hmain
  have hb0 : (⟨b, (seek b 0).2⟩ : S).b = b := rfl
  unfold openPlot
  rw [hopen]
  simp only
  rw [bind_ok e1, bind_ok e2, bind_ok e3]
  have hty : ¬ (if wordAt b (0 + 10 + 1) > 1000 then wordAt b (0 + 10 + 1) - 1000 else wordAt b (0 + 10 + 1)) ≠ 1 := by
    show ¬ (if wordAt b 11 > 1000 then wordAt b 11 - 1000 else wordAt b 11) ≠ 1
    rcases htype with h | h <;> rw [h] <;> decide
  rw [if_neg hty, r]
  simp only [hb]

end Dyna.D3
