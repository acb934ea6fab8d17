import Verif.Props.D3Plot
/-!
# Properties of the reading calls (C33, C34, C40, C55)
-/

namespace Dyna.D3

/-! ## C33 -/

/-- C33 for the time, the node data, and the data of elements of which there are some: a state
that does not exist is an error, no data is returned, and the file stays the same. Missing: kinds
of elements of which there are none (`c33_no_elements_no_error`). -/
theorem c33_out_of_range_partial (p : Plot) {state : Nat} (h : p.states.length ≤ state) :
    readTime p state = .ok (p, none) ∧
    readCoordinates p state = .ok (p, none) ∧
    readVelocity p state = .ok (p, none) ∧
    readAcceleration p state = .ok (p, none) ∧
    (toU64 p.cda.raw.nel8 ≠ 0 → readSolidsState p state = .ok (p, none)) ∧
    (p.cda.raw.nelt ≠ 0 → readThickState p state = .ok (p, none)) ∧
    (p.cda.raw.nel2 ≠ 0 → readBeamsState p state = .ok (p, none)) ∧
    (p.cda.raw.nel4 ≠ 0 → readShellsState p state = .ok (p, none)) := by
  have hs : p.states[state]? = none := List.getElem?_eq_none h
  have hnode : ∀ ptr, readNodeData p ptr state = .ok (p, none) := by
    intro ptr
    unfold readNodeData
    rw [hs]
    split <;> rfl
  have hel : ∀ {α : Type} (n nv ptr : Nat) (a : Bool) (f : List Nat → Res (Option (List α))), n ≠ 0 →
      readElementState p n nv ptr state a f = .ok (p, none) := by
    intro α n nv ptr a f hn
    unfold readElementState
    rw [if_neg hn, hs]
  refine ⟨?_, hnode _, hnode _, hnode _, hel _ _ _ _ _, hel _ _ _ _ _, hel _ _ _ _ _, hel _ _ _ _ _⟩
  unfold readTime
  rw [hs]

/-- The sample has three states and elements of all kinds. -/
example : ∃ plot, openPlot sampleFiles = .ok plot ∧ plot.states.length ≤ 3 ∧ toU64 plot.cda.raw.nel8 ≠ 0 ∧
    plot.cda.raw.nelt ≠ 0 ∧ plot.cda.raw.nel2 ≠ 0 ∧ plot.cda.raw.nel4 ≠ 0 ∧
    Res.is (readTime plot 2) (fun r => r.2.isSome) = true := by
  obtain ⟨plot, h1, h2⟩ := Res.is_iff (r := openPlot sampleFiles) (f := fun plot =>
    decide (plot.states.length ≤ 3 ∧ toU64 plot.cda.raw.nel8 ≠ 0 ∧
    plot.cda.raw.nelt ≠ 0 ∧ plot.cda.raw.nel2 ≠ 0 ∧ plot.cda.raw.nel4 ≠ 0 ∧
    Res.is (readTime plot 2) (fun r => r.2.isSome) = true)) (by decide +kernel)
  exact ⟨plot, h1, of_decide_eq_true h2⟩

/-- C33 is false for elements of which there are none: reading state 100 of a file with one state
is not an error. -/
theorem c33_no_elements_no_error : ∃ plot, openPlot hugeFiles = .ok plot ∧ plot.states.length = 1 ∧
    readBeamsState plot 100 = .ok (plot, some []) := by
  obtain ⟨plot, h1, h2⟩ := Res.is_iff (r := openPlot hugeFiles) (f := fun plot =>
    decide (plot.states.length = 1 ∧ plot.cda.raw.nel2 = 0)) (by decide +kernel)
  obtain ⟨h2, h3⟩ := of_decide_eq_true h2
  refine ⟨plot, h1, h2, ?_⟩
  unfold readBeamsState readElementState
  rw [if_pos h3]

/-! ## C34 -/

/-- Specification: call `f` for the states `i`, `i + 1`, …, `i + n - 1` one after the other, stop at
the first one that fails, and put the results behind each other. -/
def eachState (f : Plot → Nat → Call (List Nat)) : (n i : Nat) → Plot → Call (List Nat)
  | 0, _, p => .ok (p, some [])
  | n + 1, i, p =>
    (f p i).bind fun
      | (p, none) => .ok (p, none)
      | (p, some d) => (eachState f n (i + 1) p).bind fun
        | (p, some ds) => .ok (p, some (d ++ ds))
        | (p, none) => .ok (p, none)

/-- A read does not change anything but the buffer. -/
theorem readAt_frame {p p' : Plot} {n k : Nat} {r : Option (List Nat)} (h : readAt p n k = .ok (p', r)) :
    p'.states = p.states ∧ p'.ptrs = p.ptrs ∧ p'.cda = p.cda := by
  unfold readAt at h
  split at h
  · split at h
    · cases h; exact ⟨rfl, rfl, rfl⟩
    all_goals cases h
  all_goals cases h

theorem readEach_eq (f : Plot → Nat → Call (List Nat)) (n ptr : Nat) (q : Plot → Prop)
    (hq : ∀ p p' k r, q p → readAt p n k = .ok (p', r) → q p')
    (hf : ∀ p i s, q p → p.states[i]? = some s → f p i = readAt p n (s + ptr)) :
    ∀ (l : List Nat) (p : Plot) (i : Nat), q p → p.states.drop i = l →
      readEach n ptr l p = eachState f l.length i p := by
  intro l
  induction l with
  | nil => intro p i _ _; rfl
  | cons s rest ih =>
    intro p i hp hl
    have hs : p.states[i]? = some s := by
      have := congrArg List.head? hl
      simpa [List.head?_drop] using this
    unfold readEach
    simp only [List.length_cons, eachState]
    rw [hf p i s hp hs]
    cases hr : readAt p n (s + ptr) with
    | err => rfl
    | ub => rfl
    | abort => rfl
    | ok x =>
      obtain ⟨p', r⟩ := x
      have hfr := readAt_frame hr
      cases r with
      | none => rfl
      | some d =>
        simp only [Res.bind]
        have hd : p'.states.drop (i + 1) = rest := by
          rw [hfr.1]
          have := congrArg List.tail hl
          simpa [List.tail_drop] using this
        rw [ih p' (i + 1) (hq _ _ _ _ hp hr) hd]
        cases eachState f rest.length (i + 1) p' with
        | err => rfl
        | ub => rfl
        | abort => rfl
        | ok y =>
          obtain ⟨p'', r⟩ := y
          cases r <;> rfl

/-- C34 for the time: reading all times is the same as reading the time of each state. -/
theorem c34_all_time (p : Plot) : readAllTime p = eachState readTime p.states.length 0 p := by
  unfold readAllTime
  refine readEach_eq readTime 1 p.ptrs.stTime (fun p' => p'.ptrs = p.ptrs) ?_ ?_ _ p 0 rfl rfl
  · intro p1 p2 k r h e
    rw [(readAt_frame e).2.1, h]
  · intro p1 i s h hs
    unfold readTime
    rw [hs, h]

theorem allNodeData_eq (p : Plot) (sel : Ptrs → Nat) (hptr : sel p.ptrs ≠ 0) :
    readAllNodeData p (sel p.ptrs) =
      eachState (fun p' i => readNodeData p' (sel p'.ptrs) i) p.states.length 0 p := by
  unfold readAllNodeData
  refine readEach_eq (fun p' i => readNodeData p' (sel p'.ptrs) i) _ _
    (fun p' => p'.ptrs = p.ptrs ∧ p'.cda = p.cda) ?_ ?_ _ p 0 ⟨rfl, rfl⟩ rfl
  · intro p1 p2 k r h e
    exact ⟨(readAt_frame e).2.1.trans h.1, (readAt_frame e).2.2.trans h.2⟩
  · intro p1 i s h hs
    unfold readNodeData
    rw [h.1, h.2, if_neg hptr, hs]

/-- C34 for node data that is in the file: reading all states at once is the same as reading each
state, including errors. Missing: node data that is not in the file (`c34_absent_data`). -/
theorem c34_all_node_data_partial (p : Plot) :
    (p.ptrs.stCoords ≠ 0 → readAllCoordinates p = eachState readCoordinates p.states.length 0 p) ∧
    (p.ptrs.stVel ≠ 0 → readAllVelocity p = eachState readVelocity p.states.length 0 p) ∧
    (p.ptrs.stAcc ≠ 0 → readAllAcceleration p = eachState readAcceleration p.states.length 0 p) :=
  ⟨allNodeData_eq p Ptrs.stCoords, allNodeData_eq p Ptrs.stVel, allNodeData_eq p Ptrs.stAcc⟩

/-- The coordinates of the sample. -/
example : ∃ plot, openPlot sampleFiles = .ok plot ∧ plot.ptrs.stCoords ≠ 0 ∧
    readAllCoordinates plot = .ok (plot, some ((List.range 6).map (1001 + ·) ++ (List.range 6).map (2001 + ·) ++
      (List.range 6).map (3001 + ·))) ∧
    readAllTime plot = .ok (plot, some [1000, 2000, 3000]) := by
  obtain ⟨plot, h1, h2⟩ := Res.is_iff (r := openPlot sampleFiles) (f := fun plot =>
    decide (plot.ptrs.stCoords ≠ 0 ∧
    readAllCoordinates plot = .ok (plot, some ((List.range 6).map (1001 + ·) ++ (List.range 6).map (2001 + ·) ++
      (List.range 6).map (3001 + ·))) ∧
    readAllTime plot = .ok (plot, some [1000, 2000, 3000]))) (by decide +kernel)
  exact ⟨plot, h1, of_decide_eq_true h2⟩

/-- C34 is false for node data that is not in the file: reading the velocity of a state fails, and
reading all velocities succeeds with the words at the start of each state. -/
theorem c34_absent_data : ∃ plot, openPlot sampleFiles = .ok plot ∧
    (∀ i, readVelocity plot i = .ok (plot, none)) ∧
    readAllVelocity plot = .ok (plot, some [1000, 0, 0, 0, 0, 0, 2000, 0, 0, 0, 0, 0, 3000, 0, 0, 0, 0, 0]) := by
  obtain ⟨plot, h1, h2⟩ := Res.is_iff (r := openPlot sampleFiles) (f := fun plot =>
    decide (plot.ptrs.stVel = 0 ∧
    readAllVelocity plot = .ok (plot, some [1000, 0, 0, 0, 0, 0, 2000, 0, 0, 0, 0, 0, 3000, 0, 0, 0, 0, 0])))
      (by decide +kernel)
  obtain ⟨h2, h3⟩ := of_decide_eq_true h2
  refine ⟨plot, h1, ?_, h3⟩
  intro i
  unfold readVelocity readNodeData
  rw [if_pos h2]

/-! ## C40 -/

/-- Specification: the raw word for a deletion option and a number of integration points
(LS-DYNA database manual: MAXINT ≥ 0 is option 0, MAXINT < 0 option 1 with |MAXINT| points, and
MAXINT < -10000 option 2 with |MAXINT| - 10000 points). -/
def encodeMaxint (mdlopt : Nat) (points : Int) : Int :=
  if mdlopt = 0 then points else if mdlopt = 1 then -points else -(points + 10000)

/-- C40: every raw word is the encoding of what is derived from it, and what is derived from the
encoding of an option and a number of points is that option and that number. So option and number
can be recovered uniquely. -/
theorem c40_deletion_round_trip :
    (∀ raw : Int, encodeMaxint (deletion raw).1 (deletion raw).2 = raw ∧ (deletion raw).1 ≤ 2 ∧
      0 ≤ (deletion raw).2) ∧
    (∀ n : Int, 0 ≤ n → deletion (encodeMaxint 0 n) = (0, n)) ∧
    (∀ n : Int, 1 ≤ n → n ≤ 10000 → deletion (encodeMaxint 1 n) = (1, n)) ∧
    (∀ n : Int, 1 ≤ n → deletion (encodeMaxint 2 n) = (2, n)) := by
  refine ⟨?_, ?_, ?_, ?_⟩
  · intro raw
    unfold deletion
    split
    · exact ⟨rfl, by simp, by assumption⟩
    · split
      · unfold encodeMaxint
        simp only [show (2 : Nat) ≠ 0 by decide, show (2 : Nat) ≠ 1 by decide, if_false]
        omega
      · unfold encodeMaxint
        simp only [Nat.one_ne_zero, if_false, if_true]
        omega
  · intro n h
    unfold encodeMaxint deletion
    simp [h]
  · intro n h1 h2
    unfold encodeMaxint deletion
    simp only [Nat.one_ne_zero, if_false, if_true]
    rw [if_neg (by omega), if_neg (by omega)]
    simp
  · intro n h1
    unfold encodeMaxint deletion
    simp only [show (2 : Nat) ≠ 0 by decide, show (2 : Nat) ≠ 1 by decide, if_false]
    rw [if_neg (by omega), if_pos (by omega)]
    congr 1
    omega

/-- C40: digit `n` of a number, as `_get_nth_digit` computes it, is its decimal digit. -/
theorem c40_digits (value n : Nat) : digit value n = value / 10 ^ n % 10 := by
  induction n generalizing value with
  | zero => simp only [digit, Nat.pow_zero, Nat.div_one]; omega
  | succ n ih =>
    simp only [digit]
    rw [ih, Nat.div_div_eq_div_mul, Nat.pow_succ, Nat.mul_comm 10]

/-- Everything `derive` requires. -/
theorem derive_inv {r : Raw} {x : Extra} {c : Cda} (h : derive r x = .ok c) :
    c.raw = r ∧ c.ext = x ∧ (c.ndim, c.packed, c.mattyp) = dimension r.ndim ∧ c.ndim = 3 ∧
    c.beamip = sub64 (sub64 r.nv1d 6) (x.neipb * 3 % u64) / ((5 + x.neipb) % u64) ∧
    (5 + x.neipb) % u64 ≠ 0 ∧
    c.ioshl = ((outputFlag r.ioshl0).1, (outputFlag r.ioshl1).1, (outputFlag r.ioshl2).1,
      (outputFlag r.ioshl3).1) ∧
    c.iosol = ((outputFlag r.ioshl0).2, (outputFlag r.ioshl1).2) ∧
    (c.mdlopt, c.maxint) = deletion r.maxint ∧ c.maxint ≤ 255 ∧ (r.icode = 2 ∨ r.icode = 6) ∧
    r.neips ≤ 255 ∧ c.istrn = strainFlag r c.maxint c.ioshl ∧
    digit r.idtdt 0 ≠ 1 ∧ digit r.idtdt 1 ≠ 1 ∧ digit r.idtdt 2 ≠ 1 ∧ digit r.idtdt 3 ≠ 1 := by
  unfold derive at h
  by_cases h0 : (5 + x.neipb) % u64 = 0
  · rw [if_pos h0] at h; cases h
  rw [if_neg h0] at h
  cases hd : dimension r.ndim with
  | mk n pm =>
  obtain ⟨pk, mt⟩ := pm
  rw [hd] at h
  simp only at h
  by_cases h1 : n ≠ 3
  · rw [if_pos h1] at h; cases h
  rw [if_neg h1] at h
  by_cases h2 : digit r.idtdt 0 = 1 ∨ digit r.idtdt 1 = 1 ∨ digit r.idtdt 2 = 1 ∨ digit r.idtdt 3 = 1
  · rw [if_pos h2] at h; cases h
  rw [if_neg h2] at h
  cases hm : deletion r.maxint with
  | mk o m =>
  rw [hm] at h
  simp only at h
  by_cases h3 : r.icode ≠ 2 ∧ r.icode ≠ 6
  · rw [if_pos h3] at h; cases h
  rw [if_neg h3] at h
  by_cases h4 : r.neips > 255
  · rw [if_pos h4] at h; cases h
  rw [if_neg h4] at h
  by_cases h5 : m > 255
  · rw [if_pos h5] at h; cases h
  rw [if_neg h5] at h
  cases h
  simp only [not_or] at h2
  exact ⟨rfl, rfl, rfl, by simpa using h1, rfl, h0, rfl, rfl, rfl, Int.not_lt.1 h5, by omega, by omega, rfl, h2⟩

/-- C40: for every family that is opened the raw dimension is 4 (unpacked, three dimensional), the
dimension is 3, the deletion option and number of integration points are those that the raw word
encodes, and there are at most 255 integration points; the number of beam integration points is
the number the values of a beam were computed with: six resultants, five values for every point,
and NEIPB history variables for every point and for average, minimum and maximum. -/
theorem c40_derived {files : List Bytes} {plot : Plot} (h : openPlot files = .ok plot)
    (hal : Aligned plot.buf) (hsize : plot.buf.bytes.length < 2 ^ 63) :
    wordAt plot.buf 15 = 4 ∧ plot.cda.ndim = 3 ∧
    encodeMaxint plot.cda.mdlopt plot.cda.maxint = signed plot.buf.ws (wordAt plot.buf 36) ∧
    0 ≤ plot.cda.maxint ∧ plot.cda.maxint ≤ 255 ∧ plot.cda.mdlopt ≤ 2 ∧
    ∀ points neipb : Nat, plot.cda.ext.neipb = neipb →
      wordAt plot.buf 30 = 6 + 5 * points + neipb * (3 + points) → wordAt plot.buf 30 < u64 → neipb < 2 ^ 60 →
      plot.cda.beamip = points := by
  obtain ⟨hb, hinv, hder, hsup, hpk⟩ := openPlot_inv h
  obtain ⟨hraw, -⟩ := hinv hal hsize
  obtain ⟨-, -, hd, hnd, hbi, h0, -, -, hm, hmax, -⟩ := derive_inv hder
  have hrt := c40_deletion_round_trip.1 plot.cda.raw.maxint
  rw [← hm] at hrt
  refine ⟨?_, hnd, ?_, hrt.2.2, hmax, hrt.2.1, ?_⟩
  · have hmt : plot.cda.mattyp = false := by
      unfold supported at hsup
      simp only [Bool.and_eq_true, Bool.not_eq_true'] at hsup
      exact hsup.1.1.1.1.1.1
    have hr : plot.cda.raw.ndim = wordAt plot.buf 15 := by rw [hraw]; rfl
    rw [← hr]
    rw [hnd, hpk, hmt] at hd
    unfold dimension at hd
    revert hd
    split
    · intro h; cases h
    split
    · intro h; cases h
    split
    · intro; assumption
    · intro h
      simp only [Prod.mk.injEq] at h
      omega
  · rw [hrt.1, hraw]
    rfl
  · intro points neipb hn hv hlt hnb
    rw [hn] at hbi h0
    have hr : plot.cda.raw.nv1d = wordAt plot.buf 30 := by rw [hraw]; rfl
    rw [hr, hv] at hbi
    rw [hv] at hlt
    rw [hbi]
    have e1 : neipb * 3 % u64 = neipb * 3 := Nat.mod_eq_of_lt (by unfold u64; omega)
    have e2 : (5 + neipb) % u64 = 5 + neipb := Nat.mod_eq_of_lt (by unfold u64; omega)
    have e3 : neipb * (3 + points) = neipb * 3 + neipb * points := Nat.mul_add _ _ _
    have e4 : (5 + neipb) * points = 5 * points + neipb * points := Nat.add_mul _ _ _
    rw [e1, e2, e3]
    rw [e3] at hlt
    have : sub64 (sub64 (6 + 5 * points + (neipb * 3 + neipb * points)) 6) (neipb * 3) =
        (5 + neipb) * points := by
      rw [e4]
      generalize neipb * points = m at *
      unfold sub64
      unfold u64 at *
      omega
    rw [this, Nat.mul_div_cancel_left _ (by omega)]

/-- C40: the strain flag. If the number of values for a shell is that of the format, with twelve
strains exactly if `strain` is 1, then this is what is derived; with IDTDT it is its fifth digit. -/
theorem c40_strain_flag (r : Raw) (maxint : Int) (o : Nat × Nat × Nat × Nat) (strain : Nat) (hs : strain ≤ 1)
    (hm : 0 ≤ maxint) (hn : r.nv2d + 1 < u64) (hv : 0 < r.nv2d)
    (hnv : r.nv2d = maxint.toNat * (6 * o.1 + o.2.1 + r.neips) + 8 * o.2.2.1 + 4 * o.2.2.2 + 12 * strain)
    (hmu : maxint.toNat < u64) :
    (r.idtdt < 100 → strainFlag r maxint o = some strain) ∧
    (100 ≤ r.idtdt → strainFlag r maxint o = some (r.idtdt / 10000 % 10)) := by
  constructor
  · intro hi
    unfold strainFlag
    rw [if_pos hi, if_pos hv, toU64_nonneg hm hmu]
    simp only
    rw [hnv] at hn ⊢
    generalize maxint.toNat * (6 * o.1 + o.2.1 + r.neips) + 8 * o.2.2.1 + 4 * o.2.2.2 = z at *
    congr 1
    have hz : z % u64 = z := Nat.mod_eq_of_lt (by omega)
    rw [hz]
    unfold u64 at *
    split <;> omega
  · intro hi
    unfold strainFlag
    rw [if_neg (by omega), c40_digits]

/-- The sample; a word -10003 means three points and deletion option 2. -/
example : ∃ plot, openPlot sampleFiles = .ok plot ∧ Aligned plot.buf ∧ plot.buf.bytes.length < 2 ^ 63 ∧
    wordAt plot.buf 30 = 6 + 5 * 0 + 0 * (3 + 0) ∧ plot.cda.maxint = 3 ∧ plot.cda.istrn = some 0 := by
  obtain ⟨plot, h1, h2⟩ := Res.is_iff (r := openPlot sampleFiles) (f := fun plot =>
    (plot.buf.files.all fun f => f.length % plot.buf.ws == 0) && decide (plot.buf.bytes.length < 2 ^ 63 ∧
    wordAt plot.buf 30 = 6 + 5 * 0 + 0 * (3 + 0) ∧ plot.cda.maxint = 3 ∧ plot.cda.istrn = some 0))
      (by decide +kernel)
  simp only [Bool.and_eq_true, List.all_eq_true, decide_eq_true_eq, beq_iff_eq] at h2
  exact ⟨plot, h1, fun f hf => Nat.dvd_of_mod_eq_zero (h2.1 f hf), h2.2⟩

example : deletion (-10003) = (2, 3) ∧ deletion (-4) = (1, 4) ∧ deletion 5 = (0, 5) := by decide

/-- C40: the output flags. For every family that is opened the flags that tell which values are written
are those of the four words of the format (positions 43 to 46): a shell value is written exactly if its
word is 1000, and the two solid values exactly if the word is 1000 or 999. -/
theorem c40_output_flags {files : List Bytes} {plot : Plot} (h : openPlot files = .ok plot)
    (hal : Aligned plot.buf) (hsize : plot.buf.bytes.length < 2 ^ 63) :
    let shell (w : Nat) : Nat := if w = 1000 then 1 else 0
    let solid (w : Nat) : Nat := if 999 ≤ w ∧ w ≤ 1000 then 1 else 0
    plot.cda.ioshl = (shell (wordAt plot.buf 43), shell (wordAt plot.buf 44), shell (wordAt plot.buf 45),
      shell (wordAt plot.buf 46)) ∧
    plot.cda.iosol = (solid (wordAt plot.buf 43), solid (wordAt plot.buf 44)) := by
  obtain ⟨hb, hinv, hder, hsup, hpk⟩ := openPlot_inv h
  obtain ⟨hraw, -⟩ := hinv hal hsize
  obtain ⟨-, -, -, -, -, -, h1, h2, -⟩ := derive_inv hder
  have f1 : ∀ w, (outputFlag w).1 = if w = 1000 then 1 else 0 := by
    intro w; unfold outputFlag; split
    · rfl
    · split <;> rfl
  have f2 : ∀ w, (outputFlag w).2 = if 999 ≤ w ∧ w ≤ 1000 then 1 else 0 := by
    intro w; unfold outputFlag
    by_cases a : w = 1000
    · rw [if_pos a, if_pos (by omega)]
    · rw [if_neg a]
      by_cases b : w = 999
      · rw [if_pos b, if_pos (by omega)]
      · rw [if_neg b, if_neg (by omega)]
  have g0 : plot.cda.raw.ioshl0 = wordAt plot.buf 43 := by rw [hraw]; rfl
  have g1 : plot.cda.raw.ioshl1 = wordAt plot.buf 44 := by rw [hraw]; rfl
  have g2 : plot.cda.raw.ioshl2 = wordAt plot.buf 45 := by rw [hraw]; rfl
  have g3 : plot.cda.raw.ioshl3 = wordAt plot.buf 46 := by rw [hraw]; rfl
  simp only [f1, f2, g0, g1, g2, g3] at h1 h2
  exact ⟨h1, h2⟩

/-- C40: the strain flag of a file without shells but with thick shells: twelve strains or none. -/
theorem c40_strain_flag_thick (r : Raw) (maxint : Int) (o : Nat × Nat × Nat × Nat) (strain : Nat) (hs : strain ≤ 1)
    (hm : 0 ≤ maxint) (hmu : maxint.toNat < u64) (hn : r.nv3dt < u64) (hv : r.nv2d = 0) (ht : 0 < r.nelt)
    (hi : r.idtdt < 100)
    (hnv : r.nv3dt = maxint.toNat * (6 * o.1 + o.2.1 + r.neips) + 12 * strain) :
    strainFlag r maxint o = some strain := by
  unfold strainFlag
  rw [if_pos hi, if_neg (by omega), if_pos ht, toU64_nonneg hm hmu]
  rw [hnv] at hn ⊢
  generalize maxint.toNat * (6 * o.1 + o.2.1 + r.neips) = z at *
  congr 1
  unfold sub64
  unfold u64 at *
  split <;> omega

/-- C40: without shells and thick shells and without IDTDT the strain flag is not set at all. -/
theorem c40_strain_flag_unset (r : Raw) (maxint : Int) (o : Nat × Nat × Nat × Nat) (hi : r.idtdt < 100)
    (h2 : r.nv2d = 0) (ht : r.nelt = 0) : strainFlag r maxint o = none := by
  unfold strainFlag
  rw [if_pos hi, if_neg (by omega), if_neg (by omega)]

/-! ## C55 -/

/-- A call that reads from an open file. -/
inductive Query where
  | time (state : Nat) | coordinates (state : Nat) | velocity (state : Nat) | acceleration (state : Nat)
  | allTime | allCoordinates | allVelocity | allAcceleration
  | nodeIds | solidIds | beamIds | shellIds | thickIds | partIds | title | runTime
  | solidElements | thickElements | beamElements | shellElements
  | part (i : Nat) | partById (id : Nat)
  | solidsState (state : Nat) | thickState (state : Nat) | beamsState (state : Nat) | shellsState (state : Nat)

/-- The file after the call. -/
def after {α : Type} (r : Call α) : Res Plot := Res.bind r fun x => .ok x.1

/-- Execute a call and forget its result. -/
def Query.run (p : Plot) : Query → Res Plot
  | .time i => after (readTime p i)
  | .coordinates i => after (readCoordinates p i)
  | .velocity i => after (readVelocity p i)
  | .acceleration i => after (readAcceleration p i)
  | .allTime => after (readAllTime p)
  | .allCoordinates => after (readAllCoordinates p)
  | .allVelocity => after (readAllVelocity p)
  | .allAcceleration => after (readAllAcceleration p)
  | .nodeIds => after (readNodeIds p)
  | .solidIds => after (readSolidIds p)
  | .beamIds => after (readBeamIds p)
  | .shellIds => after (readShellIds p)
  | .thickIds => after (readThickIds p)
  | .partIds => after (readPartIds p)
  | .title => after (readTitle p)
  | .runTime => after (readRunTime p)
  | .solidElements => after (readSolidElements p)
  | .thickElements => after (readThickElements p)
  | .beamElements => after (readBeamElements p)
  | .shellElements => after (readShellElements p)
  | .part i => after (readPart p i)
  | .partById i => after (readPartById p i)
  | .solidsState i => after (readSolidsState p i)
  | .thickState i => after (readThickState p i)
  | .beamsState i => after (readBeamsState p i)
  | .shellsState i => after (readShellsState p i)

/-- A history of calls, whether they fail or not. -/
def runAll : List Query → Plot → Res Plot
  | [], p => .ok p
  | q :: qs, p => (q.run p).bind (runAll qs)

/-- The sizes in bytes of everything that is read fit into 64 bits. -/
structure Fits (p : Plot) : Prop where
  ws : 0 < p.buf.ws ∧ p.buf.ws ≤ 8
  nodes : p.cda.raw.numnp < 2 ^ 57
  solids : toU64 p.cda.raw.nel8 < 2 ^ 57
  beams : p.cda.raw.nel2 < 2 ^ 57
  shells : p.cda.raw.nel4 < 2 ^ 57
  thick : p.cda.raw.nelt < 2 ^ 57
  parts : p.cda.raw.nmmat < 2 ^ 57
  solidValues : toU64 p.cda.raw.nel8 * p.cda.raw.nv3d < 2 ^ 61
  beamValues : p.cda.raw.nel2 * p.cda.raw.nv1d < 2 ^ 61
  shellValues : p.cda.raw.nel4 * p.cda.raw.nv2d < 2 ^ 61
  thickValues : p.cda.raw.nelt * p.cda.raw.nv3dt < 2 ^ 61

/-- A call does not change the file. -/
def Keeps {α : Type} (p : Plot) (r : Call α) : Prop := ∀ p' x, r = .ok (p', x) → p' = p

theorem keeps_ok {α : Type} (p : Plot) (x : Option α) : Keeps p (.ok (p, x)) := by
  intro p' y h; cases h; rfl

theorem keeps_after {α : Type} {p p' : Plot} {r : Call α} (h : Keeps p r) (e : after r = .ok p') : p' = p := by
  unfold after at e
  cases r with
  | ok x => cases e; exact h _ _ rfl
  | err => cases e
  | ub => cases e
  | abort => cases e

theorem keeps_readAt {p : Plot} (herr : p.buf.err = false) (hws : p.buf.ws ≤ 8) {n : Nat} (hn : n < 2 ^ 61)
    (k : Nat) : Keeps p (readAt p n k) := by
  have h1 : n % u64 * p.buf.ws < u64 := by
    rw [Nat.mod_eq_of_lt (by unfold u64; omega)]
    calc n * p.buf.ws ≤ n * 8 := Nat.mul_le_mul_left _ hws
      _ < u64 := by unfold u64; omega
  intro p' x e
  rcases readAt_cases herr h1 (k := k) with h | ⟨l, h⟩
  · rw [h] at e; cases e
  · rw [h] at e; cases e; rfl

theorem keeps_map {α β : Type} {p : Plot} {r : Call α} (f : α → β) (h : Keeps p r) : Keeps p (Call.map f r) := by
  intro p' x e
  cases r with
  | ok y => cases e; exact h _ _ rfl
  | err => cases e
  | ub => cases e
  | abort => cases e

theorem keeps_readEach {p : Plot} (herr : p.buf.err = false) (hws : p.buf.ws ≤ 8) {n : Nat} (hn : n < 2 ^ 61)
    (ptr : Nat) : ∀ l, Keeps p (readEach n ptr l p) := by
  intro l
  induction l with
  | nil => exact keeps_ok _ _
  | cons s rest ih =>
    intro p' x e
    unfold readEach at e
    have hk := keeps_readAt herr hws hn (s + ptr)
    cases hr : readAt p n (s + ptr) with
    | err => rw [hr] at e; cases e
    | ub => rw [hr] at e; cases e
    | abort => rw [hr] at e; cases e
    | ok y =>
      obtain ⟨p1, r⟩ := y
      have := hk _ _ hr
      subst this
      rw [hr] at e
      cases r with
      | none => cases e; rfl
      | some d =>
        simp only at e
        cases hr2 : readEach n ptr rest p1 with
        | err => rw [hr2] at e; cases e
        | ub => rw [hr2] at e; cases e
        | abort => rw [hr2] at e; cases e
        | ok z =>
          obtain ⟨p2, r⟩ := z
          have := ih _ _ hr2
          subst this
          rw [hr2] at e
          cases r <;> (cases e; rfl)

theorem keeps_readIds {p : Plot} (herr : p.buf.err = false) (hws : p.buf.ws ≤ 8) {n : Nat} (hn : n < 2 ^ 61)
    (ptr : Nat) : Keeps p (readIds p ptr n) := by
  unfold readIds
  split
  · exact keeps_ok _ _
  · exact keeps_readAt herr hws hn _

theorem seek_cases (b : Buf) (w : Nat) :
    seek b w = ({ b with err := true }, none) ∨ ∃ q, seek b w = (b, some q) ∧ Valid b q := by
  unfold seek
  cases hl : locate b.files 0 (w * b.ws % u64) with
  | none => exact .inl rfl
  | some x =>
    obtain ⟨i, o⟩ := x
    refine .inr ⟨_, rfl, ?_⟩
    by_cases hin : w * b.ws % u64 < b.bytes.length
    · obtain ⟨i', o', cur, h1, h2, h3, _⟩ := (locate_spec b.files [] (w * b.ws % u64)).1 hin
      simp only [List.length_nil, List.nil_append] at h1 h2
      rw [hl] at h1
      cases h1
      exact ⟨cur, h2, Nat.le_of_lt h3⟩
    · have := (locate_spec b.files [] (w * b.ws % u64)).2 (Nat.le_of_not_lt hin)
      simp only [List.length_nil] at this
      rw [hl] at this
      cases this

theorem keeps_partIdLoop {b : Buf} (hws : b.ws ≤ 8) : ∀ (n : Nat) {q : Pos} {acc : List Nat} {b' : Buf}
    {q' : Pos} {ids : List Nat}, Valid b q → partIdLoop n b (some q) acc = .ok (b', some q', ids) → b' = b := by
  intro n
  induction n with
  | zero => intro q acc b' q' ids _ e; cases e; rfl
  | succ n ih =>
    intro q acc b' q' ids hv e
    unfold partIdLoop at e
    by_cases hr : absPos b q + 1 * b.ws ≤ b.bytes.length
    · obtain ⟨q1, f1, f2, _⟩ := read_inside (n := 1) hv (by unfold u64; omega) hr
      rw [f1] at e
      simp only [skipBytes, skipWords] at e
      by_cases hc : ulongMax - 72 / b.ws ≤ q1.word
      · rw [if_pos hc] at e
        cases n with
        | zero => cases e
        | succ n => cases e
      · rw [if_neg hc] at e
        rcases seek_cases b (q1.word + 72 / b.ws) with h | ⟨q2, h, h2⟩
        · rw [h] at e
          cases n with
          | zero => cases e
          | succ n => cases e
        · rw [h] at e
          exact ih h2 e
    · obtain ⟨bytes, f1⟩ := read_outside (n := 1) hv (by unfold u64; omega) (Nat.lt_of_not_le hr)
      rw [f1] at e
      simp only [skipBytes, skipWords] at e
      cases n with
      | zero => cases e
      | succ n => cases e

theorem keeps_readPartIds {p : Plot} (herr : p.buf.err = false) (F : Fits p) : Keeps p (readPartIds p) := by
  rw [readPartIds_clean herr]
  unfold readPartIdsClean
  split
  · split
    · exact keeps_ok _ _
    · split
      · intro p' x e; cases e
      · rename_i hn
        intro p' x e
        rcases seek_cases p.buf p.ptrs.partTitles with h | ⟨q, h, hv⟩
        · rw [h] at e
          obtain ⟨n, hn⟩ := Nat.exists_eq_succ_of_ne_zero hn
          rw [hn] at e
          cases e
        · rw [h] at e
          simp only at e
          cases hl : partIdLoop p.cda.raw.nmmat p.buf (some q) [] with
          | err => rw [hl] at e; cases e
          | ub => rw [hl] at e; cases e
          | abort => rw [hl] at e; cases e
          | ok y =>
            obtain ⟨b', q', ids⟩ := y
            rw [hl] at e
            cases q' with
            | none => cases e
            | some q' =>
              have := keeps_partIdLoop F.ws.2 _ hv hl
              subst this
              cases e
              rfl
  · exact keeps_readIds herr F.ws.2 (by have := F.parts; omega) _

theorem keeps_elements {p : Plot} (herr : p.buf.err = false) (F : Fits p) :
    Keeps p (readSolidElements p) ∧ Keeps p (readThickElements p) ∧ Keeps p (readBeamElements p) ∧
    Keeps p (readShellElements p) := by
  have h1 := F.solids
  have h2 := F.beams
  have h3 := F.shells
  have h4 := F.thick
  refine ⟨?_, ?_, ?_, ?_⟩
  · unfold readSolidElements
    split
    · exact keeps_ok _ _
    · exact keeps_map _ (keeps_readAt herr F.ws.2 (by omega) _)
  · unfold readThickElements
    split
    · exact keeps_ok _ _
    · exact keeps_map _ (keeps_readAt herr F.ws.2 (by omega) _)
  · unfold readBeamElements
    split
    · exact keeps_ok _ _
    · exact keeps_map _ (keeps_readAt herr F.ws.2 (by omega) _)
  · unfold readShellElements
    split
    · exact keeps_ok _ _
    · exact keeps_map _ (keeps_readAt herr F.ws.2 (by omega) _)

theorem keeps_addElements {p p' : Plot} {part : Nat} {readI : Plot → Call (List Nat)}
    {readE : Plot → Call (List Con)} {l : List (Nat × Nat)} (hi : Keeps p (readI p)) (he : Keeps p (readE p))
    (e : addElements part readI readE p = .ok (p', l)) : p' = p := by
  unfold addElements at e
  cases h : readI p with
  | err => rw [h] at e; cases e
  | ub => rw [h] at e; cases e
  | abort => rw [h] at e; cases e
  | ok y =>
    obtain ⟨p1, r⟩ := y
    have := hi _ _ h
    subst this
    rw [h] at e
    cases r with
    | none => cases e; rfl
    | some ids =>
      simp only at e
      split at e
      · cases e; rfl
      · cases h2 : readE p1 with
        | err => rw [h2] at e; cases e
        | ub => rw [h2] at e; cases e
        | abort => rw [h2] at e; cases e
        | ok z =>
          obtain ⟨p2, r⟩ := z
          have := he _ _ h2
          subst this
          rw [h2] at e
          cases r with
          | none => cases e; rfl
          | some els =>
            simp only at e
            split at e
            · cases e; rfl
            all_goals cases e

theorem keeps_readPart {p : Plot} (herr : p.buf.err = false) (F : Fits p) (i : Nat) : Keeps p (readPart p i) := by
  obtain ⟨k1, k2, k3, k4⟩ := keeps_elements herr F
  have i1 : Keeps p (readSolidIds p) := keeps_readIds herr F.ws.2 (by have := F.solids; omega) _
  have i2 : Keeps p (readThickIds p) := keeps_readIds herr F.ws.2 (by have := F.thick; omega) _
  have i3 : Keeps p (readBeamIds p) := keeps_readIds herr F.ws.2 (by have := F.beams; omega) _
  have i4 : Keeps p (readShellIds p) := keeps_readIds herr F.ws.2 (by have := F.shells; omega) _
  intro p' x e
  unfold readPart at e
  cases h1 : addElements i readSolidIds readSolidElements p with
  | err => rw [h1] at e; cases e
  | ub => rw [h1] at e; cases e
  | abort => rw [h1] at e; cases e
  | ok y =>
  obtain ⟨p1, l1⟩ := y
  have := keeps_addElements i1 k1 h1
  subst this
  rw [h1] at e
  simp only [Res.bind] at e
  cases h2 : addElements i readThickIds readThickElements p1 with
  | err => rw [h2] at e; cases e
  | ub => rw [h2] at e; cases e
  | abort => rw [h2] at e; cases e
  | ok y =>
  obtain ⟨p2, l2⟩ := y
  have := keeps_addElements i2 k2 h2
  subst this
  rw [h2] at e
  simp only at e
  cases h3 : addElements i readBeamIds readBeamElements p2 with
  | err => rw [h3] at e; cases e
  | ub => rw [h3] at e; cases e
  | abort => rw [h3] at e; cases e
  | ok y =>
  obtain ⟨p3, l3⟩ := y
  have := keeps_addElements i3 k3 h3
  subst this
  rw [h3] at e
  simp only at e
  cases h4 : addElements i readShellIds readShellElements p3 with
  | err => rw [h4] at e; cases e
  | ub => rw [h4] at e; cases e
  | abort => rw [h4] at e; cases e
  | ok y =>
  obtain ⟨p4, l4⟩ := y
  have := keeps_addElements i4 k4 h4
  subst this
  rw [h4] at e
  simp only at e
  split at e <;> (cases e; rfl)

theorem keeps_readPartById {p : Plot} (herr : p.buf.err = false) (F : Fits p) (id : Nat) :
    Keeps p (readPartById p id) := by
  intro p' x e
  unfold readPartById at e
  cases h : readPartIds p with
  | err => rw [h] at e; cases e
  | ub => rw [h] at e; cases e
  | abort => rw [h] at e; cases e
  | ok y =>
    obtain ⟨p1, r⟩ := y
    have := keeps_readPartIds herr F _ _ h
    subst this
    rw [h] at e
    cases r with
    | none => cases e; rfl
    | some ids =>
      simp only at e
      split at e
      · cases e; rfl
      · split at e
        · cases e; rfl
        · exact keeps_readPart herr F _ _ _ e
        all_goals cases e

theorem keeps_elementState {α : Type} {p : Plot} (herr : p.buf.err = false) (hws : p.buf.ws ≤ 8) {n nv : Nat}
    (hn : n * nv < 2 ^ 61) (ptr state : Nat) (a : Bool) (f : List Nat → Res (Option (List α))) :
    Keeps p (readElementState p n nv ptr state a f) := by
  unfold readElementState
  split
  · exact keeps_ok _ _
  · split
    · exact keeps_ok _ _
    · split
      · exact keeps_ok _ _
      · rename_i s _ _
        intro p' x e
        have hk := keeps_readAt herr hws hn (s + ptr)
        cases h : readAt p (n * nv) (s + ptr) with
        | err => rw [h] at e; cases e
        | ub => rw [h] at e; cases e
        | abort => rw [h] at e; cases e
        | ok y =>
          obtain ⟨p1, r⟩ := y
          have := hk _ _ h
          subst this
          rw [h] at e
          cases r with
          | none => cases e; rfl
          | some d =>
            simp only at e
            split at e
            · cases e; rfl
            all_goals cases e

theorem keeps_run {p p' : Plot} (herr : p.buf.err = false) (F : Fits p) (q : Query) (e : q.run p = .ok p') :
    p' = p := by
  have h1 := F.nodes
  have h2 := F.solids
  have h3 := F.beams
  have h4 := F.shells
  have h5 := F.thick
  have hnode : ∀ ptr i, Keeps p (readNodeData p ptr i) := by
    intro ptr i
    unfold readNodeData
    split
    · exact keeps_ok _ _
    · split
      · exact keeps_ok _ _
      · exact keeps_readAt herr F.ws.2 (by omega) _
  have hall : ∀ ptr, Keeps p (readAllNodeData p ptr) :=
    fun ptr => keeps_readEach herr F.ws.2 (by omega) ptr _
  cases q with
  | time i =>
    refine keeps_after (r := readTime p i) ?_ e
    unfold readTime
    split
    · exact keeps_ok _ _
    · exact keeps_readAt herr F.ws.2 (by omega) _
  | coordinates i => exact keeps_after (hnode _ _) e
  | velocity i => exact keeps_after (hnode _ _) e
  | acceleration i => exact keeps_after (hnode _ _) e
  | allTime => exact keeps_after (keeps_readEach herr F.ws.2 (by omega) _ _) e
  | allCoordinates => exact keeps_after (hall _) e
  | allVelocity => exact keeps_after (hall _) e
  | allAcceleration => exact keeps_after (hall _) e
  | nodeIds => exact keeps_after (keeps_readIds herr F.ws.2 (by omega) _) e
  | solidIds => exact keeps_after (keeps_readIds herr F.ws.2 (by omega) _) e
  | beamIds => exact keeps_after (keeps_readIds herr F.ws.2 (by omega) _) e
  | shellIds => exact keeps_after (keeps_readIds herr F.ws.2 (by omega) _) e
  | thickIds => exact keeps_after (keeps_readIds herr F.ws.2 (by omega) _) e
  | partIds => exact keeps_after (keeps_readPartIds herr F) e
  | title => exact keeps_after (keeps_readAt herr F.ws.2 (by omega) _) e
  | runTime => exact keeps_after (keeps_readAt herr F.ws.2 (by omega) _) e
  | solidElements => exact keeps_after (keeps_elements herr F).1 e
  | thickElements => exact keeps_after (keeps_elements herr F).2.1 e
  | beamElements => exact keeps_after (keeps_elements herr F).2.2.1 e
  | shellElements => exact keeps_after (keeps_elements herr F).2.2.2 e
  | part i => exact keeps_after (keeps_readPart herr F i) e
  | partById i => exact keeps_after (keeps_readPartById herr F i) e
  | solidsState i => exact keeps_after (keeps_elementState herr F.ws.2 F.solidValues _ _ _ _) e
  | thickState i => exact keeps_after (keeps_elementState herr F.ws.2 F.thickValues _ _ _ _) e
  | beamsState i => exact keeps_after (keeps_elementState herr F.ws.2 F.beamValues _ _ _ _) e
  | shellsState i => exact keeps_after (keeps_elementState herr F.ws.2 F.shellValues _ _ _ _) e

/-- C55 for histories without undefined behaviour: after any sequence of calls, whether they
failed or not, the file is what it was after opening, so every later call behaves as if it
were the first one. Missing: a failed access to the files is undefined behaviour
(`c55_failed_access_is_undefined`). -/
theorem c55_history_partial {files : List Bytes} {plot : Plot} (h : openPlot files = .ok plot) (F : Fits plot)
    (qs : List Query) {p' : Plot} (e : runAll qs plot = .ok p') : p' = plot := by
  have herr : plot.buf.err = false := (openBuf_inv (openPlot_inv h).1).2.1
  clear h
  induction qs with
  | nil => cases e; rfl
  | cons q qs ih =>
    unfold runAll at e
    cases hq : q.run plot with
    | err => rw [hq] at e; cases e
    | ub => rw [hq] at e; cases e
    | abort => rw [hq] at e; cases e
    | ok p1 =>
      rw [hq] at e
      have := keeps_run herr F q hq
      subst this
      exact ih e

/-- Reading from the sample, with calls that fail in between. -/
example : ∃ plot, openPlot sampleFiles = .ok plot ∧ Fits plot ∧
    runAll [.time 0, .time 7, .velocity 0, .part 99, .partById 1234, .allCoordinates, .partById 7,
      .shellsState 9, .shellsState 2] plot = .ok plot ∧
    readTime plot 9 = .ok (plot, none) ∧ readTime plot 1 = .ok (plot, some [2000]) := by
  obtain ⟨plot, h1, h2⟩ := Res.is_iff (r := openPlot sampleFiles) (f := fun plot =>
    decide ((0 < plot.buf.ws ∧ plot.buf.ws ≤ 8) ∧ plot.cda.raw.numnp < 2 ^ 57 ∧
      toU64 plot.cda.raw.nel8 < 2 ^ 57 ∧ plot.cda.raw.nel2 < 2 ^ 57 ∧ plot.cda.raw.nel4 < 2 ^ 57 ∧
      plot.cda.raw.nelt < 2 ^ 57 ∧ plot.cda.raw.nmmat < 2 ^ 57 ∧
      toU64 plot.cda.raw.nel8 * plot.cda.raw.nv3d < 2 ^ 61 ∧ plot.cda.raw.nel2 * plot.cda.raw.nv1d < 2 ^ 61 ∧
      plot.cda.raw.nel4 * plot.cda.raw.nv2d < 2 ^ 61 ∧ plot.cda.raw.nelt * plot.cda.raw.nv3dt < 2 ^ 61 ∧
      runAll [.time 0, .time 7, .velocity 0, .part 99, .partById 1234, .allCoordinates, .partById 7,
        .shellsState 9, .shellsState 2] plot = .ok plot ∧
      readTime plot 9 = .ok (plot, none) ∧ readTime plot 1 = .ok (plot, some [2000]))) (by decide +kernel)
  obtain ⟨a1, a2, a3, a4, a5, a6, a7, a8, a9, a10, a11, a12⟩ := of_decide_eq_true h2
  exact ⟨plot, h1, ⟨a1, a2, a3, a4, a5, a6, a7, a8, a9, a10, a11⟩, a12⟩

/-- The sample without ids (NARBS = 0) and with 30 parts in the control data, but only one in the
header. -/
def fewPartsFiles : List Bytes :=
  [pack (sampleControl ((39, 0) :: (51, 30) :: sampleSet) ++ sampleGeometry ++ sampleHeaderBlocks),
   pack (sampleState 1000 ++ [eof32])]

/-- C55 is false if an access to the files fails: reading the part ids of a file whose header has
less parts than the control data runs over the end of the last file, and the pointer that is
used afterwards is closed. -/
theorem c55_failed_access_is_undefined : ∃ plot, openPlot fewPartsFiles = .ok plot ∧
    readPartIds plot = .ub := by
  obtain ⟨plot, h1, h2⟩ := Res.is_iff (r := openPlot fewPartsFiles) (f := fun plot =>
    decide (readPartIds plot = .ub)) (by decide +kernel)
  exact ⟨plot, h1, of_decide_eq_true h2⟩

end Dyna.D3
