import Verif.D3Sample
import Verif.D3PlotOpen
import Verif.D3ReadLemmas
/-!
# Properties of opening a d3plot and of reading states (C31-C34, C40, C55)
-/

namespace Dyna.D3

/-! ## C31 -/

/-- Specification: the sections of the geometry that are present, as position and number of words,
in the order coordinates, solids, thick shells, beams, shells. The numbers of words are those of
the format: three coordinates for a node, eight nodes and a material for a solid or thick shell,
six words for a beam, five for a shell. -/
def sections (raw : Raw) (d : Ptrs) : List (Nat × Nat) :=
  [(d.nodeCoords, 3 * raw.numnp), (d.el8Connect, 9 * raw.nel8.toNat)] ++
  (if raw.nelt > 0 then [(d.eltConnect, 9 * raw.nelt)] else []) ++
  (if raw.nel2 > 0 then [(d.el2Connect, 6 * raw.nel2)] else []) ++
  (if raw.nel4 > 0 then [(d.el4Connect, 5 * raw.nel4)] else [])

/-- Specification: the sections follow each other without gaps, the first one at `start`, and the
last one ends at the result. -/
def Contiguous : (start : Nat) → List (Nat × Nat) → (fin : Nat) → Prop
  | start, [], fin => start = fin
  | start, (p, n) :: rest, fin => p = start ∧ Contiguous (start + n) rest fin

/-- Two sections have no word in common. -/
def Disjoint (a b : Nat × Nat) : Prop := ∀ k, ¬ ((a.1 ≤ k ∧ k < a.1 + a.2) ∧ (b.1 ≤ k ∧ k < b.1 + b.2))

theorem contiguous_ge {l : List (Nat × Nat)} : ∀ {start fin : Nat}, Contiguous start l fin →
    ∀ x ∈ l, start ≤ x.1 := by
  induction l with
  | nil => intro start fin _ x hx; cases hx
  | cons a rest ih =>
    intro start fin h x hx
    obtain ⟨h1, h2⟩ := h
    rcases List.mem_cons.1 hx with rfl | hx
    · exact Nat.le_of_eq h1.symm
    · have := ih h2 x hx
      omega

theorem contiguous_disjoint {l : List (Nat × Nat)} : ∀ {start fin : Nat}, Contiguous start l fin →
    l.Pairwise Disjoint := by
  induction l with
  | nil => intro _ _ _; exact .nil
  | cons a rest ih =>
    intro start fin h
    obtain ⟨h1, h2⟩ := h
    refine .cons ?_ (ih h2)
    intro x hx k hk
    have := contiguous_ge h2 x hx
    omega

/-- The control words are small. For words of four bytes this is always the case
(`small_words32`). -/
def SmallWords (b : Buf) : Prop := ∀ k, k < 82 → wordAt b k < 2 ^ 32

theorem leNat_lt : ∀ (l : Bytes), (∀ x ∈ l, x < 256) → leNat l < 256 ^ l.length := by
  intro l
  induction l with
  | nil => intro _; decide
  | cons x xs ih =>
    intro h
    have h1 := ih (fun y hy => h y (List.mem_cons_of_mem _ hy))
    have h2 := h x List.mem_cons_self
    simp only [leNat, List.length_cons, Nat.pow_succ]
    omega

theorem small_words32 {b : Buf} (hws : b.ws = 4) (hb : ∀ x ∈ b.bytes, x < 256) : SmallWords b := by
  intro k _
  unfold wordAt ctrl
  have h1 := leNat_lt ((b.bytes.drop (k * b.ws)).take b.ws)
    (fun x hx => hb x (List.mem_of_mem_drop (List.mem_of_mem_take hx)))
  have h2 : ((b.bytes.drop (k * b.ws)).take b.ws).length ≤ 4 := by
    rw [List.length_take, hws]
    exact Nat.min_le_left _ _
  calc _ < 256 ^ ((b.bytes.drop (k * b.ws)).take b.ws).length := h1
    _ ≤ 256 ^ 4 := Nat.pow_le_pow_right (by omega) h2

theorem signed_small {ws w : Nat} (hws : ws = 4 ∨ ws = 8) (h : w < 2 ^ 32) : (signed ws w).natAbs < 2 ^ 32 := by
  unfold signed
  rcases hws with rfl | rfl
  · simp only [show (256 : Nat) ^ 4 = 4294967296 by decide, show (256 : Int) ^ 4 = 4294967296 by decide]
    split <;> omega
  · simp only [show (256 : Nat) ^ 8 = 18446744073709551616 by decide,
      show (256 : Int) ^ 8 = 18446744073709551616 by decide]
    split <;> omega

theorem derive_ndim {r : Raw} {x : Extra} {c : Cda} (h : derive r x = .ok c) : c.ndim = 3 ∧ c.raw = r := by
  unfold derive at h
  simp only at h
  repeat' split at h
  all_goals (try (cases h; done))
  all_goals (cases h; rename_i h0 _ _ _ _ ; first | exact ⟨rfl, rfl⟩ | skip)
  all_goals (refine ⟨?_, rfl⟩; simp_all)

/-- What opening does with the geometry, for all signs of NEL8. -/
theorem geometry_layout {files : List Bytes} {plot : Plot} (h : openPlot files = .ok plot)
    (hal : Aligned plot.buf) (hsize : plot.buf.bytes.length < 2 ^ 63) (hs : SmallWords plot.buf) :
    SameGeo (geoPtrs plot.cda (64 + plot.cda.raw.extra + partWords plot.cda.ext) {}) plot.ptrs ∧
    64 + plot.cda.raw.extra + partWords plot.cda.ext + geoLen plot.cda < words plot.buf ∧
    plot.cda.ndim = 3 := by
  obtain ⟨hb, hinv, hder, hsup, hpk⟩ := openPlot_inv h
  obtain ⟨hraw, -, -, s, d0, t, hg, hgeo, hat⟩ := hinv hal hsize
  obtain ⟨hbf, hbe, hbw, hbl⟩ := openBuf_inv hb
  have g : Good plot.buf := ⟨hbe, by omega, by omega, hsize, hal⟩
  have hnd := (derive_ndim hder).1
  have hext : plot.cda.raw.extra < 2 ^ 32 := by rw [hraw]; exact hs 57 (by omega)
  have hnp : plot.cda.raw.numnp < 2 ^ 32 := by rw [hraw]; exact hs 16 (by omega)
  have hn2 : plot.cda.raw.nel2 < 2 ^ 32 := by rw [hraw]; exact hs 28 (by omega)
  have hn4 : plot.cda.raw.nel4 < 2 ^ 32 := by rw [hraw]; exact hs 31 (by omega)
  have hnt : plot.cda.raw.nelt < 2 ^ 32 := by rw [hraw]; exact hs 40 (by omega)
  have hn8 : plot.cda.raw.nel8.natAbs < 2 ^ 32 := by
    rw [hraw]; exact signed_small hbw (hs 23 (by omega))
  have hat := hat (by omega)
  have hlen : geoLen plot.cda ≤ 2 ^ 59 := by
    unfold geoLen
    rw [hnd]
    split <;> omega
  have hle := at_le g hat
  have hw := words_small g
  unfold readGeometry at hg
  rw [bind_ok (curWord_at hat), hpk] at hg
  simp only [Bool.false_eq_true, if_false] at hg
  rw [geometry_eq _ _ _ (by unfold u64; omega)] at hg
  simp only at hg
  rw [sub64_add _ _ (by unfold u64; omega)] at hg
  by_cases hlt : 64 + plot.cda.raw.extra + partWords plot.cda.ext + geoLen plot.cda < words plot.buf
  · obtain ⟨s1, e1, e2⟩ := skip_at g hat hlt
    rw [bind_ok e1, bind_ok (hasErr_at g e2)] at hg
    cases hg
    exact ⟨hgeo, hlt, hnd⟩
  · have e1 := skip_end g hat (Nat.le_of_not_lt hlt) (small_skip g hat hlen)
    rw [bind_ok e1, bind_eq] at hg
    cases hg

/-- C31 for control words below 2^32 and a number of solids that is not negative: the sections
of the geometry follow each other without gaps directly behind the control data, they are
disjoint, their lengths are those of the format, and they are inside of the file. Missing: larger
control words (`c31_overflow_accepted`) and NEL8 < 0 (`c31_ten_node_solids_gap`). -/
theorem c31_geometry_partial {files : List Bytes} {plot : Plot} (h : openPlot files = .ok plot)
    (hal : Aligned plot.buf) (hsize : plot.buf.bytes.length < 2 ^ 63) (hs : SmallWords plot.buf)
    (h8 : 0 ≤ plot.cda.raw.nel8) :
    ∃ fin, Contiguous (64 + wordAt plot.buf 57 + partWords plot.cda.ext)
        (sections (rawAt plot.buf) plot.ptrs) fin ∧
      (sections (rawAt plot.buf) plot.ptrs).Pairwise Disjoint ∧ fin < words plot.buf := by
  obtain ⟨⟨g1, g2, g3, g4, g5⟩, hw, hnd⟩ := geometry_layout h hal hsize hs
  obtain ⟨hraw, -⟩ := (openPlot_inv h).2.1 hal hsize
  have he : wordAt plot.buf 57 = plot.cda.raw.extra := by rw [hraw]; rfl
  rw [he, ← hraw]
  have hc : Contiguous (64 + plot.cda.raw.extra + partWords plot.cda.ext) (sections plot.cda.raw plot.ptrs)
      (64 + plot.cda.raw.extra + partWords plot.cda.ext + geoLen plot.cda) := by
    unfold sections
    have hx : (if 0 < plot.cda.raw.nel8 then 0 else 2 * plot.cda.raw.nel8.toNat) = 0 := by
      split <;> omega
    have hy : plot.cda.raw.nel8.natAbs = plot.cda.raw.nel8.toNat := by omega
    unfold geoPtrs at g1 g2 g3 g4 g5
    unfold geoLen
    simp only [hx, hy, hnd, Nat.add_zero, gt_iff_lt] at g1 g2 g3 g4 g5 ⊢
    generalize 64 + plot.cda.raw.extra + partWords plot.cda.ext = st at *
    by_cases ht : 0 < plot.cda.raw.nelt <;> by_cases h2 : 0 < plot.cda.raw.nel2 <;>
      by_cases h4 : 0 < plot.cda.raw.nel4 <;>
      simp only [ht, h2, h4, if_true, if_false, List.append_nil,
        List.cons_append, List.nil_append, Contiguous] at g3 g4 g5 ⊢ <;>
      (rw [g1, g2]; simp only [g3, g4, g5, true_and]; omega)
  exact ⟨_, hc, contiguous_disjoint hc, hw⟩

/-- The hypotheses of C31 are met by a family with elements of all kinds. -/
example : ∃ plot, openPlot sampleFiles = .ok plot ∧ Aligned plot.buf ∧
    plot.buf.bytes.length < 2 ^ 63 ∧ SmallWords plot.buf ∧ 0 ≤ plot.cda.raw.nel8 ∧
    sections (rawAt plot.buf) plot.ptrs = [(64, 6), (70, 9), (79, 9), (88, 6), (94, 5)] := by
  obtain ⟨plot, h1, h2⟩ := Res.is_iff (r := openPlot sampleFiles) (f := fun plot =>
    (plot.buf.files.all fun f => f.length % plot.buf.ws == 0) && plot.buf.bytes.length < 2 ^ 63 &&
    ((List.range 82).all fun k => wordAt plot.buf k < 2 ^ 32) && 0 ≤ plot.cda.raw.nel8 &&
    sections (rawAt plot.buf) plot.ptrs == [(64, 6), (70, 9), (79, 9), (88, 6), (94, 5)]) (by decide +kernel)
  simp only [Bool.and_eq_true, List.all_eq_true, decide_eq_true_eq, beq_iff_eq, List.mem_range] at h2
  obtain ⟨⟨⟨⟨a1, a2⟩, a3⟩, a4⟩, a5⟩ := h2
  exact ⟨plot, h1, fun f hf => Nat.dvd_of_mod_eq_zero (a1 f hf), a2, a3, a4, a5⟩

/-- C31 is false for huge control words: a file whose number of nodes is so large that the size of
the coordinates does not fit into 64 bits is accepted, and the solids start two words behind the
coordinates. -/
theorem c31_overflow_accepted : ∃ plot, openPlot hugeFiles = .ok plot ∧
    plot.cda.raw.numnp = 6148914691236517206 ∧ plot.ptrs.nodeCoords = 64 ∧ plot.ptrs.el8Connect = 66 := by
  obtain ⟨plot, h1, h2⟩ := Res.is_iff (r := openPlot hugeFiles) (f := fun plot =>
    decide (plot.cda.raw.numnp = 6148914691236517206 ∧ plot.ptrs.nodeCoords = 64 ∧
      plot.ptrs.el8Connect = 66)) (by decide +kernel)
  exact ⟨plot, h1, of_decide_eq_true h2⟩

/-- C31 is false for NEL8 < 0: eleven words are skipped for each solid, although two of them are
in a section behind the ids, which is skipped as well. -/
theorem c31_ten_node_solids_gap : ∃ plot, openPlot tetFiles = .ok plot ∧
    plot.cda.raw.nel8 = -1 ∧ plot.ptrs.eltConnect = plot.ptrs.el8Connect + 11 ∧
    extraConnectivity plot.cda = 2 := by
  obtain ⟨plot, h1, h2⟩ := Res.is_iff (r := openPlot tetFiles) (f := fun plot =>
    decide (plot.cda.raw.nel8 = -1 ∧ plot.ptrs.eltConnect = plot.ptrs.el8Connect + 11 ∧
      extraConnectivity plot.cda = 2)) (by decide +kernel)
  exact ⟨plot, h1, of_decide_eq_true h2⟩

/-! ## C32 -/

/-- Specification: a family that is laid out like the format prescribes. `c` are the control data,
`header` is the first file, `ns` the number of states in each of the other files, `e` the end of the
header and `d` the pointers behind the header. -/
structure Family (b : Buf) (c : Cda) (header : Bytes) (stateFiles : List Bytes) (ns : List Nat) (e : Nat)
    (d : Ptrs) : Prop where
  good : Good b
  buffer : openBuf b.files = .ok b
  files : b.files = header :: stateFiles
  nonempty : stateFiles ≠ []
  fileType : wordAt b 11 = 1 ∨ wordAt b 11 = 1001
  extra : wordAt b 57 = 0 ∨ 18 ≤ wordAt b 57
  control : derive (rawAt b) (extOf b) = .ok c
  supported : supported c = true
  unpacked : c.packed = false
  noCfd : c.raw.ncfdv1 ≠ 67108864
  ids : c.raw.narbs = 0 ∨ IdsOk b c (geoStart b + geoLen c)
  geometryEnd : wordBytes b (eofPos b c) = eofBytes b.ws
  headerBlocks : Blocks b (eofPos b c + 1) (ptrsIds b c) e d
  headerInFirst : e * b.ws ≤ header.length
  state : StateOk c (numrbsOf b c)
  counts : stateFiles.length = ns.length
  states : ∀ (j : Nat) (f : Bytes) (n : Nat), stateFiles[j]? = some f → ns[j]? = some n →
    StateFile b.ws (stateLen c) f n

/-- Specification: the values of `n` words of a file from word `i` on. -/
def fileWords (ws : Nat) (f : Bytes) (i n : Nat) : List Nat :=
  (List.range n).map fun m => leNat (fileWord ws f (i + m))

theorem starts_length (ws len : Nat) : ∀ (files : List Bytes) (ns : List Nat) (off : Nat),
    files.length = ns.length → (starts ws len off files ns).length = ns.sum := by
  intro files
  induction files with
  | nil => intro ns off h; cases ns <;> simp_all [starts]
  | cons f rest ih =>
    intro ns off h
    cases ns with
    | nil => simp at h
    | cons n ns =>
      simp only [starts, List.length_append, List.length_map, List.length_range, List.sum_cons]
      rw [ih ns _ (by simpa using h)]

theorem starts_get (ws len : Nat) (hws : 0 < ws) : ∀ (files : List Bytes) (ns : List Nat) (off j : Nat) (n r : Nat),
    files.length = ns.length → (∀ f ∈ files, ws ∣ f.length) → ns[j]? = some n → r < n →
    (starts ws len off files ns)[(ns.take j).sum + r]? =
      some (off + (files.take j).flatten.length / ws + r * len) := by
  intro files
  induction files with
  | nil => intro ns off j n r h _ hn _; cases ns <;> simp_all
  | cons f rest ih =>
    intro ns off j n r h hal hn hr
    cases ns with
    | nil => simp at h
    | cons m ns =>
      cases j with
      | zero =>
        simp only [List.getElem?_cons_zero, Option.some.injEq] at hn
        subst hn
        simp only [starts, List.take_zero, List.sum_nil, Nat.zero_add, List.flatten_nil, List.length_nil,
          Nat.zero_div, Nat.add_zero]
        rw [List.getElem?_append_left (by simpa using hr)]
        simp [hr]
      | succ j =>
        simp only [List.getElem?_cons_succ] at hn
        have := ih ns (off + f.length / ws) j n r (by simpa using h)
          (fun x hx => hal x (List.mem_cons_of_mem _ hx)) hn hr
        simp only [starts, List.take_succ_cons, List.sum_cons, List.flatten_cons, List.length_append]
        rw [List.getElem?_append_right (by simp; omega)]
        simp only [List.length_map, List.length_range]
        rw [show m + (ns.take j).sum + r - m = (ns.take j).sum + r by omega, this]
        obtain ⟨x, hx⟩ := hal f List.mem_cons_self
        rw [hx, Nat.mul_add_div hws, Nat.mul_div_cancel_left _ hws]
        congr 1
        omega

/-- What the proofs about one state use. -/
theorem family_state {b : Buf} {c : Cda} {header : Bytes} {stateFiles : List Bytes} {ns : List Nat} {e : Nat}
    {d : Ptrs} (F : Family b c header stateFiles ns e d) {j n r : Nat} {f : Bytes}
    (hf : stateFiles[j]? = some f) (hn : ns[j]? = some n) (hr : r < n) :
    ∃ s, (starts b.ws (stateLen c) (header.length / b.ws) stateFiles ns)[(ns.take j).sum + r]? = some s ∧
      ∀ (off k : Nat), off + k ≤ stateLen c → s + off < words b ∧ s + off + k ≤ words b ∧
        wordsFrom b (s + off) k = fileWords b.ws f (r * stateLen c + off) k := by
  have g := F.good
  have hws := g.ws
  have hal : ∀ x ∈ header :: stateFiles, b.ws ∣ x.length := by
    rw [← F.files]
    exact g.aligned
  refine ⟨_, starts_get b.ws (stateLen c) hws stateFiles ns _ j n r F.counts
    (fun x hx => hal x (List.mem_cons_of_mem _ hx)) hn hr, ?_⟩
  have hsplit : b.files = (header :: stateFiles.take j) ++ f :: stateFiles.drop (j + 1) := by
    rw [F.files, List.cons_append]
    congr 1
    have hj : j < stateFiles.length := by
      rcases Nat.lt_or_ge j stateFiles.length with h | h
      · exact h
      · rw [List.getElem?_eq_none h] at hf
        cases hf
    rw [List.getElem?_eq_getElem hj] at hf
    cases hf
    exact (List.take_append_drop j stateFiles).symm.trans (by rw [List.drop_eq_getElem_cons hj])
  have hst := F.states j f n hf hn
  have hoff : header.length / b.ws + (stateFiles.take j).flatten.length / b.ws =
      (header :: stateFiles.take j).flatten.length / b.ws := by
    obtain ⟨x, hx⟩ := hal header List.mem_cons_self
    rw [List.flatten_cons, List.length_append, hx, Nat.mul_add_div hws, Nat.mul_div_cancel_left _ hws]
  rw [hoff]
  have hin : ∀ (off k : Nat), off + k ≤ stateLen c → (r * stateLen c + off + k + 1) * b.ws ≤ f.length := by
    intro off k h
    refine Nat.le_trans (Nat.mul_le_mul_right _ ?_) hst.size
    have : (r + 1) * stateLen c ≤ n * stateLen c := Nat.mul_le_mul_right _ hr
    rw [Nat.succ_mul] at this
    omega
  have hpre : b.ws ∣ (header :: stateFiles.take j).flatten.length := by
    have := aligned_base g.aligned (header :: stateFiles.take j).length
    unfold base at this
    rw [hsplit] at this
    simpa [-List.length_flatten] using this
  have hend : (header :: stateFiles.take j).flatten.length + f.length ≤ b.bytes.length := by
    unfold Buf.bytes
    rw [hsplit, List.flatten_append, List.length_append]
    have : (f :: stateFiles.drop (j + 1)).flatten.length = f.length + (stateFiles.drop (j + 1)).flatten.length := by
      rw [List.flatten_cons, List.length_append]
    omega
  intro off k h
  have h1 := hin off k h
  have hle : (header :: stateFiles.take j).flatten.length / b.ws + r * stateLen c + off + k + 1 ≤ words b := by
    rw [le_words g, show (header :: stateFiles.take j).flatten.length / b.ws + r * stateLen c + off + k + 1 =
      (header :: stateFiles.take j).flatten.length / b.ws + (r * stateLen c + off + k + 1) by omega,
      Nat.add_mul, Nat.div_mul_cancel hpre]
    omega
  refine ⟨by omega, by omega, ?_⟩
  unfold wordsFrom fileWords
  apply List.map_congr_left
  intro m hm
  rw [List.mem_range] at hm
  rw [wordAt_eq, show (header :: stateFiles.take j).flatten.length / b.ws + r * stateLen c + off + m =
    (header :: stateFiles.take j).flatten.length / b.ws + (r * stateLen c + off + m) by omega,
    wordBytes_file g hsplit]
  refine Nat.le_trans (Nat.mul_le_mul_right _ ?_) h1
  omega

/-- The file after opening. -/
def Family.plot (b : Buf) (c : Cda) (header : Bytes) (stateFiles : List Bytes) (ns : List Nat)
    (d : Ptrs) : Plot :=
  ⟨c, numrbsOf b c, ptrsAfter c d [] (starts b.ws (stateLen c) (header.length / b.ws) stateFiles ns),
    starts b.ws (stateLen c) (header.length / b.ws) stateFiles ns, b⟩

theorem Blocks.state {b : Buf} {k e : Nat} {d d' : Ptrs} (h : Blocks b k d e d') :
    d'.stTime = d.stTime ∧ d'.stCoords = d.stCoords ∧ d'.stVel = d.stVel ∧ d'.stAcc = d.stAcc := by
  induction h with
  | finish => exact ⟨rfl, rfl, rfl, rfl⟩
  | title _ _ _ ih => exact ih
  | parts _ _ _ ih => exact ih
  | contacts _ _ _ ih => exact ih
  | keywords _ _ _ ih => exact ih

theorem family_stTime {b : Buf} {c : Cda} {header : Bytes} {stateFiles : List Bytes} {ns : List Nat} {e : Nat}
    {d : Ptrs} (F : Family b c header stateFiles ns e d) : d.stTime = 0 := by
  rw [F.headerBlocks.state.1]
  unfold ptrsIds
  simp only
  split <;> rfl

/-- Everything around the decoding of element data. -/
theorem readElementState_at {α : Type} {p : Plot} (g : Good p.buf) {n nv ptr state s : Nat} (hn : n ≠ 0)
    (hs : p.states[state]? = some s) {accept : Bool} (ha : accept = true)
    (decode : List Nat → Res (Option (List α))) (h1 : s + ptr < words p.buf)
    (h2 : s + ptr + n * nv ≤ words p.buf) :
    readElementState p n nv ptr state accept decode =
      (decode (wordsFrom p.buf (s + ptr) (n * nv))).bind fun r => .ok (p, r) := by
  unfold readElementState
  rw [if_neg hn, hs, ha]
  simp only [Bool.true_eq_false, if_false]
  rw [readAt_at g h1 h2]
  simp only
  cases decode (wordsFrom p.buf (s + ptr) (n * nv)) <;> rfl

/-- C32. A family with any number of files with any number of states is opened, exactly the states
of all files are found, and state `r` of file `j`, whose index is the number of states in the files
before plus `r`, is read from that file, `r` state lengths behind its start: the time at offset 0,
coordinates, velocities and accelerations behind the global variables in this order, and then the
values of solids, beams, shells and thick shells. The file stays the same. -/
theorem c32_states {b : Buf} {c : Cda} {header : Bytes} {stateFiles : List Bytes} {ns : List Nat} {e : Nat}
    {d : Ptrs} (F : Family b c header stateFiles ns e d) :
    ∃ plot, openPlot (header :: stateFiles) = .ok plot ∧ plot.cda = c ∧ plot.states.length = ns.sum ∧
    ∀ (j n r : Nat) (f : Bytes), stateFiles[j]? = some f → ns[j]? = some n → r < n →
      let i := (ns.take j).sum + r
      let at_ := fun off k => fileWords b.ws f (r * stateLen c + off) k
      let raw := c.raw
      readTime plot i = .ok (plot, some (at_ 0 1)) ∧
      (raw.iu ≠ 0 → readCoordinates plot i = .ok (plot, some (at_ (1 + raw.nglbv) (3 * raw.numnp)))) ∧
      (raw.iv ≠ 0 → readVelocity plot i =
        .ok (plot, some (at_ (1 + raw.nglbv + raw.iu * (3 * raw.numnp)) (3 * raw.numnp)))) ∧
      (raw.ia ≠ 0 → readAcceleration plot i =
        .ok (plot, some (at_ (1 + raw.nglbv + (raw.iu + raw.iv) * (3 * raw.numnp)) (3 * raw.numnp)))) ∧
      (raw.nel8 ≠ 0 → readSolidsState plot i =
        (withStrain c fun istrn => decodeAll (fun _ => solid c istrn) raw.nel8.toNat raw.nv3d
          (at_ (offSolid c) (raw.nel8.toNat * raw.nv3d))).bind fun r => .ok (plot, r)) ∧
      (raw.nel2 ≠ 0 → c.ext.neipb ≤ 255 → c.beamip ≤ 255 → readBeamsState plot i =
        (decodeAll (fun _ => beam c) raw.nel2 raw.nv1d
          (at_ (offBeam c) (raw.nel2 * raw.nv1d))).bind fun r => .ok (plot, r)) ∧
      (raw.nel4 ≠ 0 → readShellsState plot i =
        (withStrain c fun istrn => decodeAll (shell c istrn (raw.neips * points c * raw.nel4)) raw.nel4
          raw.nv2d (at_ (offShell c) (raw.nel4 * raw.nv2d))).bind fun r => .ok (plot, r)) ∧
      (raw.nelt ≠ 0 → readThickState plot i =
        (withStrain c fun istrn => decodeAll (thickShell c istrn (raw.nelt * 3 * raw.neips)) raw.nelt
          raw.nv3dt (at_ (offThick c) (raw.nelt * raw.nv3dt))).bind fun r => .ok (plot, r)) := by
  have hopen := openPlot_at F.good F.buffer F.fileType F.extra F.control F.supported F.files F.nonempty F.counts
    F.unpacked F.state F.ids F.geometryEnd F.headerBlocks F.headerInFirst F.noCfd F.states
  rw [F.files] at hopen
  refine ⟨_, hopen, rfl, starts_length _ _ _ _ _ F.counts, ?_⟩
  intro j n r f hf hn hr
  obtain ⟨s, hs, hat⟩ := family_state F hf hn hr
  have hst : starts b.ws (stateLen c) (header.length / b.ws) stateFiles ns ≠ [] := by
    intro h; rw [h] at hs; cases hs
  have hp : ptrsAfter c d [] (starts b.ws (stateLen c) (header.length / b.ws) stateFiles ns) = statePtrs c d := by
    unfold ptrsAfter
    cases h : starts b.ws (stateLen c) (header.length / b.ws) stateFiles ns with
    | nil => exact absurd h hst
    | cons => rfl
  have ok := F.state
  have htime := family_stTime F
  rw [hp]
  have g : Good b := F.good
  have hw := words_small g
  have hu : u64 = 18446744073709551616 := rfl
  have hlen : stateLen c = offDeletion c + deletionLen c := rfl
  have l0 : offCoords c = 1 + c.raw.nglbv := rfl
  have l1 : offVel c = offCoords c + nodeLen c c.raw.iu := rfl
  have l2 : offAcc c = offVel c + nodeLen c c.raw.iv := rfl
  have l3 : offThermal c = offAcc c + nodeLen c c.raw.ia := rfl
  have l4 : offSolid c = offThermal c + c.ext.nt3d * c.raw.nel8.toNat := rfl
  have l5 : offBeam c = offSolid c + c.raw.nv3d * c.raw.nel8.toNat := rfl
  have l6 : offShell c = offBeam c + c.raw.nv1d * c.raw.nel2 := rfl
  have l7 : offThick c = offShell c + c.raw.nv2d * c.raw.nel4 := rfl
  have l8 : offDeletion c = offThick c + c.raw.nv3dt * c.raw.nelt := rfl
  have hnl : ∀ fl, fl ≤ 1 → nodeLen c fl = fl * (3 * c.raw.numnp) := by
    intro fl h
    rw [nodeLen_eq h, Nat.mul_comm 3 fl, Nat.mul_assoc]
  have n1 := hnl _ ok.iu
  have n2 := hnl _ ok.iv
  have n3 := hnl _ ok.ia
  have hone : ∀ fl, fl ≤ 1 → fl ≠ 0 → fl * (3 * c.raw.numnp) = c.raw.numnp * 3 := by
    intro fl h h'
    have : fl = 1 := by omega
    subst this
    omega
  -- nodes
  have hnode : ∀ off, off ≠ 0 → off + c.raw.numnp * 3 ≤ stateLen c →
      readNodeData ⟨c, numrbsOf b c, statePtrs c d, starts b.ws (stateLen c) (header.length / b.ws) stateFiles ns,
        b⟩ off ((ns.take j).sum + r) =
      .ok (⟨c, numrbsOf b c, statePtrs c d, starts b.ws (stateLen c) (header.length / b.ws) stateFiles ns, b⟩,
        some (fileWords b.ws f (r * stateLen c + off) (3 * c.raw.numnp))) := by
    intro off h0 h
    obtain ⟨h1, h2, h3⟩ := hat off _ h
    unfold readNodeData
    rw [if_neg h0]
    simp only [hs]
    rw [readAt_at g h1 h2]
    simp only [h3, Nat.mul_comm]
  -- elements
  have h8 : toU64 c.raw.nel8 = c.raw.nel8.toNat := by
    apply toU64_nonneg ok.solids
    have h1 := F.headerBlocks.lt
    have h2 := F.headerInFirst
    have h3 : e ≤ words b := by
      rw [le_words g]
      unfold Buf.bytes
      rw [F.files, List.flatten_cons, List.length_append]
      omega
    have h4 : eofPos b c = geoStart b + geoLen c + c.raw.narbs + extraConnectivity c + 2 * c.raw.nadapt := rfl
    have h5 : 9 * c.raw.nel8.natAbs ≤ geoLen c := by unfold geoLen; omega
    have := ok.solids
    omega
  have hel : ∀ {α : Type} (k nv off : Nat) (decode : List Nat → Res (Option (List α))) (accept : Bool),
      k ≠ 0 → accept = true → off + nv * k ≤ stateLen c →
      readElementState ⟨c, numrbsOf b c, statePtrs c d,
        starts b.ws (stateLen c) (header.length / b.ws) stateFiles ns, b⟩ k nv off ((ns.take j).sum + r) accept
        decode =
      (decode (fileWords b.ws f (r * stateLen c + off) (k * nv))).bind fun r =>
        .ok (⟨c, numrbsOf b c, statePtrs c d,
          starts b.ws (stateLen c) (header.length / b.ws) stateFiles ns, b⟩, r) := by
    intro α k nv off decode accept hk ha h
    obtain ⟨h1, h2, h3⟩ := hat off (k * nv) (by rw [Nat.mul_comm]; exact h)
    rw [readElementState_at (p := ⟨c, numrbsOf b c, statePtrs c d,
      starts b.ws (stateLen c) (header.length / b.ws) stateFiles ns, b⟩) g hk hs ha decode h1 h2]
    simp only [h3]
  refine ⟨?_, ?_, ?_, ?_, ?_, ?_, ?_, ?_⟩
  · obtain ⟨h1, h2, h3⟩ := hat 0 1 (by omega)
    unfold readTime
    simp only [hs]
    have : (statePtrs c d).stTime = 0 := htime
    rw [this, readAt_at g h1 h2]
    simp only [h3]
  · intro h0
    unfold readCoordinates
    have : (statePtrs c d).stCoords = offCoords c := if_neg h0
    simp only [this]
    rw [hone _ ok.iu h0] at n1
    have := hnode (offCoords c) (by omega) (by omega)
    exact this
  · intro h0
    unfold readVelocity
    have : (statePtrs c d).stVel = offVel c := if_neg h0
    simp only [this]
    have n2' := n2
    rw [hone _ ok.iv h0] at n2'
    have := hnode (offVel c) (by omega) (by omega)
    rw [this, l1, n1, l0]
  · intro h0
    unfold readAcceleration
    have : (statePtrs c d).stAcc = offAcc c := if_neg h0
    simp only [this]
    have n3' := n3
    rw [hone _ ok.ia h0] at n3'
    have := hnode (offAcc c) (by omega) (by omega)
    rw [this, l2, l1, n1, n2, Nat.add_mul, ← Nat.add_assoc (1 + c.raw.nglbv), l0]
  · intro h0
    unfold readSolidsState
    have hne : c.raw.nel8.toNat ≠ 0 := by have := ok.solids; omega
    have := hel (α := Solid) c.raw.nel8.toNat c.raw.nv3d (offSolid c)
      (fun data => withStrain c fun istrn => decodeAll (fun _ => solid c istrn) c.raw.nel8.toNat c.raw.nv3d data)
      true hne rfl (by omega)
    simp only [h8]
    exact this
  · intro h0 h1 h2
    unfold readBeamsState
    exact hel (α := Beam) c.raw.nel2 c.raw.nv1d (offBeam c) _ _ h0 (by simp [h1, h2]) (by omega)
  · intro h0
    unfold readShellsState
    exact hel (α := Shell) c.raw.nel4 c.raw.nv2d (offShell c) _ _ h0 rfl (by omega)
  · intro h0
    unfold readThickState
    exact hel (α := Shell) c.raw.nelt c.raw.nv3dt (offThick c) _ _ h0 rfl (by omega)

/-- The buffer and the control data of the sample. -/
def sampleBuf : Buf := ⟨sampleFiles, 4, false⟩
def sampleCda : Cda :=
  ⟨rawAt sampleBuf, {}, 3, false, false, 0, (1, 1, 1, 1), (1, 1), 0, 3, some 0⟩

/-- The sample is a family with three states in two files. -/
theorem sampleFamily : ∃ header stateFiles d, sampleFiles = header :: stateFiles ∧
    Family sampleBuf sampleCda header stateFiles [2, 1] 166 d := by
  refine ⟨_, _, ?d, rfl, ?_⟩
  rotate_left
  · exact
    { good := ⟨rfl, by decide, by decide, by decide +kernel, by
        intro f hf
        have : ∀ f ∈ sampleFiles, f.length % 4 = 0 := by decide +kernel
        exact Nat.dvd_of_mod_eq_zero (this f hf)⟩
      buffer := by decide +kernel
      files := rfl
      nonempty := by simp
      fileType := by decide +kernel
      extra := by decide +kernel
      control := by decide +kernel
      supported := by decide +kernel
      unpacked := rfl
      noCfd := by decide +kernel
      ids := .inr ⟨by decide +kernel, by decide +kernel, by decide +kernel, by decide +kernel,
        by decide +kernel, by decide +kernel⟩
      geometryEnd := by decide +kernel
      headerBlocks := by
        have : eofPos sampleBuf sampleCda = 124 := by decide +kernel
        rw [this]
        refine .title (n := 18) (by decide +kernel) (by decide +kernel) ?_
        refine .parts (n := 19) (by decide +kernel) (by decide +kernel) ?_
        exact (.finish (b := sampleBuf) (k := 165) (by decide +kernel))
      headerInFirst := by decide +kernel
      state := ⟨rfl, by decide +kernel, by decide +kernel, by decide +kernel, by decide +kernel,
        by decide +kernel⟩
      counts := rfl
      states := by
        have hlen : stateLen sampleCda = 108 := by decide +kernel
        rw [hlen]
        intro j f n hf hn
        match j with
        | 0 =>
          cases hf
          cases hn
          refine ⟨by decide +kernel, ?_, by decide +kernel⟩
          have : ∀ i, i < 2 → fileWord 4 (pack (sampleState 1000 ++ sampleState 2000 ++ [eof32])) (i * 108) ≠
            eofBytes 4 := by decide +kernel
          exact this
        | 1 =>
          cases hf
          cases hn
          refine ⟨by decide +kernel, ?_, by decide +kernel⟩
          have : ∀ i, i < 1 → fileWord 4 (pack (sampleState 3000 ++ [eof32, 0])) (i * 108) ≠ eofBytes 4 := by
            decide +kernel
          exact this
        | j + 2 => cases hn }

/-- State 2 of the sample is the first state of the last file. -/
example : ∃ plot, openPlot sampleFiles = .ok plot ∧ readTime plot 2 = .ok (plot, some [3000]) ∧
    readCoordinates plot 1 = .ok (plot, some [2001, 2002, 2003, 2004, 2005, 2006]) := by
  obtain ⟨header, stateFiles, d, hs, F⟩ := sampleFamily
  obtain ⟨plot, h1, h2, h3, h4⟩ := c32_states F
  have hst : stateFiles = [pack (sampleState 1000 ++ sampleState 2000 ++ [eof32]),
    pack (sampleState 3000 ++ [eof32, 0])] := by
    unfold sampleFiles at hs
    cases hs
    rfl
  subst hst
  refine ⟨plot, by rw [hs]; exact h1, ?_, ?_⟩
  · have := (h4 1 1 0 _ rfl rfl (by decide)).1
    simp only [List.take_succ_cons, List.take_zero, List.sum_cons, List.sum_nil, Nat.add_zero] at this
    exact this.trans (congrArg (fun x => Res.ok (plot, some x)) (by decide +kernel))
  · have := (h4 0 2 1 _ rfl rfl (by decide)).2.1 (by decide +kernel)
    simp only [List.take_zero, List.sum_nil, Nat.zero_add] at this
    exact this.trans (congrArg (fun x => Res.ok (plot, some x)) (by decide +kernel))

/-! ### Displacements -/

/-- The pointer stays closed, or `cur_word` advances by exactly the number of words. -/
theorem skip_word {n : Nat} {s s' : S} (e : skip n s = .ok ((), s')) :
    (s'.p = none ∧ s'.b.err = true) ∨ ∃ q q', s.p = some q ∧ s'.p = some q' ∧ q'.word = q.word + n ∧
      q.word + n < u64 ∧ s'.b = s.b := by
  unfold skip skipWords at e
  cases hp : s.p with
  | none => rw [hp] at e; cases e; exact .inl ⟨rfl, rfl⟩
  | some q =>
    rw [hp] at e
    simp only at e
    by_cases hc : ulongMax - n ≤ q.word
    · rw [if_pos hc] at e; cases e; exact .inl ⟨rfl, rfl⟩
    · rw [if_neg hc] at e
      unfold seek at e
      cases hl : locate s.b.files 0 ((q.word + n) * s.b.ws % u64) with
      | none => rw [hl] at e; cases e; exact .inl ⟨rfl, rfl⟩
      | some x =>
        rw [hl] at e
        cases e
        refine .inr ⟨q, _, rfl, rfl, rfl, ?_, rfl⟩
        unfold ulongMax at hc
        unfold u64 at *
        omega

/-- The pointer has advanced by `k` words since `s0`, or is closed because of an error. -/
def Advanced (s0 : S) (k : Nat) (s : S) : Prop :=
  (s.p = none ∧ s.b.err = true) ∨ (k = 0 ∧ s = s0) ∨
    ∃ q q', s0.p = some q ∧ s.p = some q' ∧ q'.word = q.word + k ∧ q.word + k < u64

theorem skipIf_advanced {P : Prop} [Decidable P] {n k : Nat} {s0 s s' : S} (h : Advanced s0 k s)
    (e : skipIf P n s = .ok ((), s')) : Advanced s0 (k + if P then n else 0) s' := by
  unfold skipIf at e
  by_cases hP : P
  · rw [if_pos hP] at e
    rw [if_pos hP]
    rcases skip_word e with hd | ⟨q, q', h1, h2, h3, h4, _⟩
    · exact .inl hd
    · rcases h with hd | ⟨h0, rfl⟩ | ⟨q0, q1, e1, e2, e3, e4⟩
      · rw [hd.1] at h1; cases h1
      · exact .inr (.inr ⟨q, q', h1, h2, by omega, by omega⟩)
      · rw [e2] at h1
        cases h1
        exact .inr (.inr ⟨q0, q', e1, h2, by omega, by omega⟩)
  · rw [if_neg hP] at e
    rw [if_neg hP]
    cases e
    exact h

/-- A state is only found if the sizes of the node data agree with the sum of the flags. -/
theorem readNodes_state {c : Cda} {first : Bool} {start st : Nat} {d d' : Ptrs} {s s' : S}
    (e : readNodes c first start d s = .ok ((d', .state st), s')) :
    (if c.raw.iu ≠ 0 then 3 * c.raw.numnp % u64 else 0) + (if c.raw.iv ≠ 0 then 3 * c.raw.numnp % u64 else 0) +
      (if c.raw.ia ≠ 0 then 3 * c.raw.numnp % u64 else 0) =
    c.ndim * (c.raw.iu + c.raw.iv + c.raw.ia) * c.raw.numnp % u64 := by
  unfold readNodes at e
  obtain ⟨w0, t0, e0, e⟩ := bind_inv e
  cases e0
  have a0 : Advanced s 0 s := .inr (.inl ⟨rfl, rfl⟩)
  obtain ⟨_, t1, e1, e⟩ := bind_inv e
  have a1 := skipIf_advanced a0 e1
  obtain ⟨w1, t2, e2, e⟩ := bind_inv e
  cases e2
  obtain ⟨_, t3, e3, e⟩ := bind_inv e
  have a2 := skipIf_advanced a1 e3
  obtain ⟨w2, t4, e4, e⟩ := bind_inv e
  cases e4
  obtain ⟨_, t5, e5, e⟩ := bind_inv e
  have a3 := skipIf_advanced a2 e5
  unfold orStop at e
  obtain ⟨er, t6, e6, e⟩ := bind_inv e
  cases e6
  cases her : t5.b.err with
  | true =>
    rw [her] at e
    simp only [if_true] at e
    obtain ⟨_, t7, e7, e⟩ := bind_inv e
    cases e
  | false =>
    rw [her] at e
    simp only [Bool.false_eq_true, if_false] at e
    obtain ⟨w3, t7, e7, e⟩ := bind_inv e
    cases e7
    have hc := (ite_fail_inv e).1
    simp only [ne_eq, Decidable.not_not] at hc
    simp only [ne_eq]
    rw [← hc]
    simp only [ne_eq] at a3
    rcases a3 with hd | ⟨h0, rfl⟩ | ⟨q, q', h1, h2, h3, h4⟩
    · rw [her] at hd
      cases hd.2
    · rw [Nat.zero_add] at h0
      rw [h0]
      unfold sub64 u64
      omega
    · rw [h1, h2]
      simp only [Option.map_some, Option.getD_some, h3]
      rw [sub64_add _ _ h4]
      omega

/-- If there are states then one has been found. -/
theorem readStates_found {c : Cda} {n : Nat} : ∀ (fuel : Nat) {d d' : Ptrs} {l l' : List Nat} {s s' : S},
    readStates c n fuel d l s = .ok ((d', l'), s') → l' = l ∨
    ∃ first d0 s0 d1 st s1, readState c n first d0 s0 = .ok ((d1, .state st), s1) := by
  intro fuel
  induction fuel with
  | zero => intro d d' l l' s s' e; cases e
  | succ fuel ih =>
    intro d d' l l' s s' e
    unfold readStates at e
    obtain ⟨⟨d1, found⟩, t, e1, e⟩ := bind_inv e
    cases found with
    | finish => cases e; exact .inl rfl
    | state st => exact .inr ⟨_, _, _, _, _, _, e1⟩
    | eof =>
      simp only at e
      obtain ⟨b, t2, e2, e⟩ := bind_inv e
      cases b with
      | true => simp only [if_true] at e; exact ih e
      | false => simp only [Bool.false_eq_true, if_false] at e; cases e; exact .inl rfl

theorem readState_nodes {c : Cda} {n : Nat} {first : Bool} {d d' : Ptrs} {st : Nat} {s s' : S}
    (e : readState c n first d s = .ok ((d', .state st), s')) :
    ∃ start t, readNodes c first start d t = .ok ((d', .state st), s') := by
  unfold readState at e
  obtain ⟨_, _, _, e⟩ := bind_inv e
  obtain ⟨_, _, _, e⟩ := bind_inv e
  obtain ⟨_, _, _, e⟩ := bind_inv e
  obtain ⟨_, _, _, e⟩ := bind_inv e
  replace e := (ite_fail_inv e).2
  split at e
  · cases e
  obtain ⟨_, _, _, e⟩ := bind_inv e
  obtain ⟨_, _, _, e⟩ := bind_inv e
  have step : ∀ {m : M (Ptrs × Found)} {t t' : S}, orStop d m t = .ok ((d', .state st), t') →
      m t = .ok ((d', .state st), t') := by
    intro m t t' h
    unfold orStop at h
    obtain ⟨er, t6, e6, h⟩ := bind_inv h
    cases e6
    cases her : t.b.err with
    | true =>
      rw [her] at h
      simp only [if_true] at h
      obtain ⟨_, t7, e7, h⟩ := bind_inv h
      cases h
    | false =>
      rw [her] at h
      simpa using h
  replace e := step e
  obtain ⟨_, _, _, e⟩ := bind_inv e
  replace e := step e
  obtain ⟨_, _, _, e⟩ := bind_inv e
  exact ⟨_, _, (ite_fail_inv e).2⟩

theorem openPlot_found {files : List Bytes} {plot : Plot} (h : openPlot files = .ok plot)
    (hne : plot.states ≠ []) :
    ∃ n first d0 s0 d1 st s1, readState plot.cda n first d0 s0 = .ok ((d1, .state st), s1) := by
  unfold openPlot at h
  cases eb : openBuf files with
  | err => rw [eb] at h; cases h
  | ub => rw [eb] at h; cases h
  | abort => rw [eb] at h; cases h
  | ok b =>
    rw [eb] at h
    simp only at h
    split at h
    case h_2 => cases h
    case h_3 => cases h
    case h_4 => cases h
    rename_i c n d l s e
    cases h
    obtain ⟨_, t1, e1, e⟩ := bind_inv e
    obtain ⟨_, t2, e2, e⟩ := bind_inv e
    obtain ⟨ft, t3, e3, e⟩ := bind_inv e
    replace e := (ite_failClose_inv e).2
    unfold readPlot at e
    obtain ⟨_, t4, e4, e⟩ := bind_inv e
    obtain ⟨_, t5, e5, e⟩ := bind_inv e
    obtain ⟨_, t6, e6, e⟩ := bind_inv e
    obtain ⟨raw, t7, e7, e⟩ := bind_inv e
    obtain ⟨ext, t8, e8, e⟩ := bind_inv e
    obtain ⟨err, t9, e9, e⟩ := bind_inv e
    replace e := (ite_failClose_inv e).2
    cases hder : derive raw ext with
    | ub => rw [hder] at e; cases e
    | abort => rw [hder] at e; cases e
    | err =>
      rw [hder] at e
      exact absurd e (by intro h; change failClose _ = _ at h; unfold failClose at h; split at h <;> cases h)
    | ok c' =>
    rw [hder] at e
    simp only at e
    replace e := (ite_failClose_inv e).2
    obtain ⟨⟨n', d', l'⟩, t10, e10, e⟩ := bind_inv e
    cases e
    unfold readBody at e10
    obtain ⟨_, _, _, e10⟩ := bind_inv e10
    obtain ⟨⟨_, _⟩, _, _, e10⟩ := bind_inv e10
    obtain ⟨_, _, _, e10⟩ := bind_inv e10
    obtain ⟨_, _, _, e10⟩ := bind_inv e10
    obtain ⟨_, _, _, e10⟩ := bind_inv e10
    obtain ⟨_, _, _, e10⟩ := bind_inv e10
    replace e10 := (ite_failClose_inv e10).2
    obtain ⟨_, _, _, e10⟩ := bind_inv e10
    replace e10 := (ite_failClose_inv e10).2
    obtain ⟨_, _, _, e10⟩ := bind_inv e10
    replace e10 := (ite_failClose_inv e10).2
    obtain ⟨⟨_, _⟩, _, e11, e10⟩ := bind_inv e10
    cases e10
    rcases readStates_found _ e11 with h | ⟨first, d0, s0, d1, st, s1, h⟩
    · exact absurd h hne
    · exact ⟨_, first, d0, s0, d1, st, s1, h⟩

/-- C32: a file with nodes and states is only opened if IU, IV and IA are 0 or 1: with IU = 2
(displacements instead of coordinates) opening always fails. -/
theorem c32_displacements_rejected {files : List Bytes} {plot : Plot} (h : openPlot files = .ok plot)
    (hst : plot.states ≠ []) (hn : plot.cda.raw.numnp ≠ 0)
    (hsmall : 3 * (plot.cda.raw.iu + plot.cda.raw.iv + plot.cda.raw.ia) * plot.cda.raw.numnp < u64) :
    plot.cda.raw.iu ≤ 1 ∧ plot.cda.raw.iv ≤ 1 ∧ plot.cda.raw.ia ≤ 1 := by
  obtain ⟨n, first, d0, s0, d1, st, s1, e⟩ := openPlot_found h hst
  obtain ⟨start, t, e⟩ := readState_nodes e
  have hnd := (derive_ndim (openPlot_inv h).2.2.1).1
  have hk := readNodes_state e
  rw [hnd, Nat.mod_eq_of_lt hsmall] at hk
  by_cases hz : plot.cda.raw.iu + plot.cda.raw.iv + plot.cda.raw.ia = 0
  · omega
  · have h3 : 3 * plot.cda.raw.numnp < u64 := by
      have h1 : 3 * plot.cda.raw.numnp * 1 ≤ 3 * plot.cda.raw.numnp *
        (plot.cda.raw.iu + plot.cda.raw.iv + plot.cda.raw.ia) := Nat.mul_le_mul_left _ (by omega)
      have h2 : 3 * plot.cda.raw.numnp * (plot.cda.raw.iu + plot.cda.raw.iv + plot.cda.raw.ia) =
        3 * (plot.cda.raw.iu + plot.cda.raw.iv + plot.cda.raw.ia) * plot.cda.raw.numnp := by
        rw [Nat.mul_assoc, Nat.mul_comm plot.cda.raw.numnp, ← Nat.mul_assoc]
      omega
    rw [Nat.mod_eq_of_lt h3] at hk
    have key : ((if plot.cda.raw.iu ≠ 0 then 1 else 0) + (if plot.cda.raw.iv ≠ 0 then 1 else 0) +
        (if plot.cda.raw.ia ≠ 0 then 1 else 0)) * (3 * plot.cda.raw.numnp) =
        (plot.cda.raw.iu + plot.cda.raw.iv + plot.cda.raw.ia) * (3 * plot.cda.raw.numnp) := by
      have h2 : (plot.cda.raw.iu + plot.cda.raw.iv + plot.cda.raw.ia) * (3 * plot.cda.raw.numnp) =
        3 * (plot.cda.raw.iu + plot.cda.raw.iv + plot.cda.raw.ia) * plot.cda.raw.numnp := by
        rw [← Nat.mul_assoc, Nat.mul_comm _ 3]
      rw [h2, ← hk, Nat.add_mul, Nat.add_mul]
      congr 1
      · congr 1 <;> split <;> omega
      · split <;> omega
    have key := Nat.eq_of_mul_eq_mul_right (by omega) key
    revert key
    split <;> split <;> split <;> omega

/-- The sample meets the hypotheses, and with IU = 2 it is rejected. -/
example : ∃ plot, openPlot sampleFiles = .ok plot ∧ plot.states ≠ [] ∧ plot.cda.raw.numnp ≠ 0 ∧
    3 * (plot.cda.raw.iu + plot.cda.raw.iv + plot.cda.raw.ia) * plot.cda.raw.numnp < u64 := by
  obtain ⟨plot, h1, h2⟩ := Res.is_iff (r := openPlot sampleFiles) (f := fun plot =>
    decide (plot.states ≠ [] ∧ plot.cda.raw.numnp ≠ 0 ∧
    3 * (plot.cda.raw.iu + plot.cda.raw.iv + plot.cda.raw.ia) * plot.cda.raw.numnp < u64)) (by decide +kernel)
  exact ⟨plot, h1, of_decide_eq_true h2⟩

example : openPlot [pack (sampleControl ((20, 2) :: sampleSet) ++ sampleGeometry ++ sampleIds ++ sampleHeaderBlocks),
    pack (sampleState 1000 ++ sampleState 2000 ++ [eof32])] = .err := by decide +kernel

end Dyna.D3
