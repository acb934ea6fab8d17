import Verif.D3PlotTotal
/-!
# Reading the states of a well formed family
-/

namespace Dyna.D3

theorem skipAll_at {b : Buf} (g : Good b) : ∀ (l : List Nat) {k : Nat} {s : S}, At b k s →
    k + l.sum < words b → ∃ s', skipAll l s = .ok ((), s') ∧ At b (k + l.sum) s' := by
  intro l
  induction l with
  | nil => intro k s h hw; exact ⟨s, rfl, h⟩
  | cons n rest ih =>
    intro k s h hw
    rw [List.sum_cons] at hw ⊢
    unfold skipAll
    obtain ⟨t, e, h⟩ := skip_at g h (n := n) (by omega)
    rw [bind_ok e]
    obtain ⟨t', e, h⟩ := ih h (by omega)
    refine ⟨t', e, ?_⟩
    rw [← Nat.add_assoc]
    exact h

theorem skipIf_at {b : Buf} (g : Good b) {p : Prop} [Decidable p] {k n m : Nat} {s : S} (h : At b k s)
    (hp : p → n = m) (hnp : ¬ p → m = 0) (hw : k + m < words b) :
    ∃ s', skipIf p n s = .ok ((), s') ∧ At b (k + m) s' := by
  unfold skipIf
  by_cases hc : p
  · rw [if_pos hc, hp hc]
    exact skip_at g h hw
  · rw [if_neg hc, hnp hc]
    exact ⟨s, rfl, h⟩

theorem orStop_at {b : Buf} (g : Good b) {k : Nat} {s : S} (h : At b k s) (d : Ptrs)
    (m : M (Ptrs × Found)) : orStop d m s = m s := by
  unfold orStop
  rw [bind_ok (hasErr_at g h)]
  rfl

/-- Number of materials for the global variables. Part of the specification, models no code. -/
def matCount (c : Cda) (numrbs : Nat) : Nat :=
  c.raw.nummat8 + c.raw.nummat2 + c.raw.nummat4 + c.raw.nummatt + numrbs

theorem globals_sum (c : Cda) (numrbs : Nat) : (globals c numrbs).sum = 6 + 7 * matCount c numrbs := by
  unfold globals matCount
  simp only [List.replicate, List.flatten_cons, List.flatten_nil, List.sum_cons, List.sum_append,
    List.sum_nil]
  omega

/-- Words of one kind of node data. Part of the specification, models no code. -/
def nodeLen (c : Cda) (flag : Nat) : Nat := if flag = 0 then 0 else 3 * c.raw.numnp

/-- Words of the deletion data. Part of the specification, models no code. -/
def deletionLen (c : Cda) : Nat :=
  if c.mdlopt = 0 then 0 else if c.mdlopt = 1 then c.raw.numnp
  else c.raw.nel8.toNat + c.raw.nelt + c.raw.nel4 + c.raw.nel2

/-- Offsets of the parts of a state. Part of the specification, models no code. -/
def offCoords (c : Cda) : Nat := 1 + c.raw.nglbv
/-- Part of the specification, models no code. -/
def offVel (c : Cda) : Nat := offCoords c + nodeLen c c.raw.iu
/-- Part of the specification, models no code. -/
def offAcc (c : Cda) : Nat := offVel c + nodeLen c c.raw.iv
/-- Part of the specification, models no code. -/
def offThermal (c : Cda) : Nat := offAcc c + nodeLen c c.raw.ia
/-- Part of the specification, models no code. -/
def offSolid (c : Cda) : Nat := offThermal c + c.ext.nt3d * c.raw.nel8.toNat
/-- Part of the specification, models no code. -/
def offBeam (c : Cda) : Nat := offSolid c + c.raw.nv3d * c.raw.nel8.toNat
/-- Part of the specification, models no code. -/
def offShell (c : Cda) : Nat := offBeam c + c.raw.nv1d * c.raw.nel2
/-- Part of the specification, models no code. -/
def offThick (c : Cda) : Nat := offShell c + c.raw.nv2d * c.raw.nel4
/-- Part of the specification, models no code. -/
def offDeletion (c : Cda) : Nat := offThick c + c.raw.nv3dt * c.raw.nelt
/-- Words of a state. Part of the specification, models no code. -/
def stateLen (c : Cda) : Nat := offDeletion c + deletionLen c

/-- The pointers of the first state. Part of the specification, models no code. -/
def statePtrs (c : Cda) (d : Ptrs) : Ptrs :=
  { d with
    stCoords := if c.raw.iu = 0 then d.stCoords else offCoords c
    stVel := if c.raw.iv = 0 then d.stVel else offVel c
    stAcc := if c.raw.ia = 0 then d.stAcc else offAcc c
    stSolid := offSolid c
    stBeam := offBeam c
    stShell := offShell c
    stThick := offThick c }

/-- Control data for which the states have a layout that opening accepts.
Part of the specification, models no code. -/
structure StateOk (c : Cda) (numrbs : Nat) : Prop where
  ndim : c.ndim = 3
  solids : 0 ≤ c.raw.nel8
  iu : c.raw.iu ≤ 1
  iv : c.raw.iv ≤ 1
  ia : c.raw.ia ≤ 1
  globals : 6 + 7 * matCount c numrbs ≤ c.raw.nglbv

theorem nodeLen_eq {c : Cda} {f : Nat} (h : f ≤ 1) : nodeLen c f = 3 * f * c.raw.numnp := by
  unfold nodeLen
  rcases Nat.le_one_iff_eq_zero_or_eq_one.1 h with h | h <;> subst h <;> simp

theorem deletionWords_eq {c : Cda} (h8 : 0 ≤ c.raw.nel8) (h : deletionLen c < u64) :
    deletionWords c = deletionLen c := by
  unfold deletionLen at *
  unfold deletionWords
  by_cases h0 : c.mdlopt = 0
  · rw [if_pos h0, if_pos h0]
    rfl
  · rw [if_neg h0] at h
    rw [if_neg h0, if_neg h0]
    by_cases h1 : c.mdlopt = 1
    · rw [if_pos h1] at h
      rw [if_pos h1, if_pos h1, Nat.mod_eq_of_lt h]
    · rw [if_neg h1] at h
      rw [if_neg h1, if_neg h1, toU64_nonneg h8 (by omega), Nat.mod_eq_of_lt h]

theorem skip_mod {b : Buf} (g : Good b) {k n : Nat} {s : S} (h : At b k s) (hk : k + n < words b) :
    ∃ s', skip (n % u64) s = .ok ((), s') ∧ At b (k + n) s' := by
  have := words_small g
  rw [Nat.mod_eq_of_lt (by unfold u64; omega)]
  exact skip_at g h hk

theorem toU64_mul {x : Int} (h : 0 ≤ x) (a : Nat) (hlt : a * x.toNat < u64) :
    a * toU64 x % u64 = a * x.toNat % u64 := by
  unfold toU64
  have hx : (x % (u64 : Int)).toNat = x.toNat % u64 := by
    have h1 : x = (x.toNat : Int) := (Int.toNat_of_nonneg h).symm
    conv => lhs; rw [h1]
    rw [← Int.natCast_emod, Int.toNat_natCast]
  rw [hx, Nat.mul_mod_mod]

theorem readElements_at {b : Buf} (g : Good b) {c : Cda} {numrbs : Nat} (ok : StateOk c numrbs)
    {first : Bool} {d : Ptrs} {k : Nat} {s : S} (h : At b (k + offThermal c) s)
    (hw : k + stateLen c < words b) :
    ∃ s', readElements c first k d s = .ok ((setThick first (k + offThick c) k
        (setShell first (k + offShell c) k (setBeam first (k + offBeam c) k
          (setSolid first (k + offSolid c) k d))), .state k), s') ∧ At b (k + stateLen c) s' := by
  have hws := words_small g
  have hu : u64 = 18446744073709551616 := rfl
  obtain ⟨k1, k2, k3, k4, k5, k6⟩ := ok
  have o5 : offSolid c = offThermal c + c.ext.nt3d * c.raw.nel8.toNat := rfl
  have o6 : offBeam c = offSolid c + c.raw.nv3d * c.raw.nel8.toNat := rfl
  have o7 : offShell c = offBeam c + c.raw.nv1d * c.raw.nel2 := rfl
  have o8 : offThick c = offShell c + c.raw.nv2d * c.raw.nel4 := rfl
  have o9 : offDeletion c = offThick c + c.raw.nv3dt * c.raw.nelt := rfl
  have o10 : stateLen c = offDeletion c + deletionLen c := rfl
  have hdel := deletionWords_eq (c := c) k2 (by omega)
  unfold readElements
  rw [toU64_mul k2 c.ext.nt3d (by omega), toU64_mul k2 c.raw.nv3d (by omega)]
  obtain ⟨t, e, h⟩ := skip_mod g h (n := c.ext.nt3d * c.raw.nel8.toNat) (by omega)
  rw [show k + offThermal c + c.ext.nt3d * c.raw.nel8.toNat = k + offSolid c by omega] at h
  rw [bind_ok e, orStop_at g h, bind_ok (curWord_at h)]
  clear e
  obtain ⟨t, e, h⟩ := skip_mod g h (n := c.raw.nv3d * c.raw.nel8.toNat) (by omega)
  rw [show k + offSolid c + c.raw.nv3d * c.raw.nel8.toNat = k + offBeam c by omega] at h
  rw [bind_ok e, bind_ok (curWord_at h)]
  clear e
  obtain ⟨t, e, h⟩ := skip_mod g h (n := c.raw.nv1d * c.raw.nel2) (by omega)
  rw [show k + offBeam c + c.raw.nv1d * c.raw.nel2 = k + offShell c by omega] at h
  rw [bind_ok e, bind_ok (curWord_at h)]
  clear e
  obtain ⟨t, e, h⟩ := skip_mod g h (n := c.raw.nv2d * c.raw.nel4) (by omega)
  rw [show k + offShell c + c.raw.nv2d * c.raw.nel4 = k + offThick c by omega] at h
  rw [bind_ok e, bind_ok (curWord_at h)]
  clear e
  obtain ⟨t, e, h⟩ := skip_mod g h (n := c.raw.nv3dt * c.raw.nelt) (by omega)
  rw [show k + offThick c + c.raw.nv3dt * c.raw.nelt = k + offDeletion c by omega] at h
  rw [bind_ok e, orStop_at g h, bind_ok (curWord_at h)]
  clear e
  have hlen : sub64 (k + offDeletion c) (k + offSolid c) = offDeletion c - offSolid c := by
    have := sub64_add (k + offSolid c) (offDeletion c - offSolid c) (by omega)
    rw [← this]
    congr 1
    omega
  rw [hlen]
  have henn : (toU64 c.raw.nel8 * c.raw.nv3d + c.raw.nelt * c.raw.nv3dt + c.raw.nel2 * c.raw.nv1d +
      c.raw.nel4 * c.raw.nv2d) % u64 = offDeletion c - offSolid c := by
    have h1 : toU64 c.raw.nel8 * c.raw.nv3d % u64 = c.raw.nv3d * c.raw.nel8.toNat := by
      rw [Nat.mul_comm, toU64_mul k2 _ (by omega), Nat.mod_eq_of_lt (by omega)]
    have h2 : c.raw.nelt * c.raw.nv3dt = c.raw.nv3dt * c.raw.nelt := Nat.mul_comm _ _
    have h3 : c.raw.nel2 * c.raw.nv1d = c.raw.nv1d * c.raw.nel2 := Nat.mul_comm _ _
    have h4 : c.raw.nel4 * c.raw.nv2d = c.raw.nv2d * c.raw.nel4 := Nat.mul_comm _ _
    rw [h2, h3, h4]
    rw [hu] at h1 ⊢
    omega
  rw [henn, if_neg (by omega), hdel]
  obtain ⟨t, e, h⟩ := skipIf_at g (p := deletionLen c > 0) (n := deletionLen c) (m := deletionLen c) h
    (fun _ => rfl) (fun h => by omega) (by omega)
  rw [show k + offDeletion c + deletionLen c = k + stateLen c by omega] at h
  rw [bind_ok e, orStop_at g h]
  exact ⟨t, rfl, h⟩

theorem readNodes_at {b : Buf} (g : Good b) {c : Cda} {numrbs : Nat} (ok : StateOk c numrbs)
    {first : Bool} {d : Ptrs} {k : Nat} {s : S} (h : At b (k + offCoords c) s)
    (hw : k + stateLen c < words b) :
    ∃ s', readNodes c first k d s = .ok ((setThick first (k + offThick c) k
        (setShell first (k + offShell c) k (setBeam first (k + offBeam c) k
          (setSolid first (k + offSolid c) k (setAcc c first (k + offAcc c) k
            (setVel c first (k + offVel c) k (setCoords c first (k + offCoords c) k d)))))), .state k), s') ∧
      At b (k + stateLen c) s' := by
  have hws := words_small g
  have hu : u64 = 18446744073709551616 := rfl
  have ok' := ok
  obtain ⟨k1, k2, k3, k4, k5, k6⟩ := ok
  have o2 : offVel c = offCoords c + nodeLen c c.raw.iu := rfl
  have o3 : offAcc c = offVel c + nodeLen c c.raw.iv := rfl
  have o4 : offThermal c = offAcc c + nodeLen c c.raw.ia := rfl
  have o5 : offSolid c = offThermal c + c.ext.nt3d * c.raw.nel8.toNat := rfl
  have o6 : offBeam c = offSolid c + c.raw.nv3d * c.raw.nel8.toNat := rfl
  have o7 : offShell c = offBeam c + c.raw.nv1d * c.raw.nel2 := rfl
  have o8 : offThick c = offShell c + c.raw.nv2d * c.raw.nel4 := rfl
  have o9 : offDeletion c = offThick c + c.raw.nv3dt * c.raw.nelt := rfl
  have o10 : stateLen c = offDeletion c + deletionLen c := rfl
  have hnode : ∀ f : Nat, (f ≠ 0 → 3 * c.raw.numnp % u64 = nodeLen c f) ∨ u64 ≤ nodeLen c f := by
    intro f
    unfold nodeLen
    by_cases hf : f = 0
    · left; intro h; exact absurd hf h
    · rw [if_neg hf]
      by_cases hlt : 3 * c.raw.numnp < u64
      · left; intro _; exact Nat.mod_eq_of_lt hlt
      · right; omega
  have hzero : ∀ f : Nat, ¬ f ≠ 0 → nodeLen c f = 0 := by
    intro f hf
    unfold nodeLen
    rw [if_pos (by omega)]
  unfold readNodes
  rw [bind_ok (curWord_at h)]
  obtain ⟨t, e, h⟩ := skipIf_at g (p := c.raw.iu ≠ 0) (n := 3 * c.raw.numnp % u64)
    (m := nodeLen c c.raw.iu) h ((hnode c.raw.iu).resolve_right (by omega)) (hzero _) (by omega)
  rw [show k + offCoords c + nodeLen c c.raw.iu = k + offVel c by omega] at h
  rw [bind_ok e, bind_ok (curWord_at h)]
  clear e
  obtain ⟨t, e, h⟩ := skipIf_at g (p := c.raw.iv ≠ 0) (n := 3 * c.raw.numnp % u64)
    (m := nodeLen c c.raw.iv) h ((hnode c.raw.iv).resolve_right (by omega)) (hzero _) (by omega)
  rw [show k + offVel c + nodeLen c c.raw.iv = k + offAcc c by omega] at h
  rw [bind_ok e, bind_ok (curWord_at h)]
  clear e
  obtain ⟨t, e, h⟩ := skipIf_at g (p := c.raw.ia ≠ 0) (n := 3 * c.raw.numnp % u64)
    (m := nodeLen c c.raw.ia) h ((hnode c.raw.ia).resolve_right (by omega)) (hzero _) (by omega)
  rw [show k + offAcc c + nodeLen c c.raw.ia = k + offThermal c by omega] at h
  rw [bind_ok e, orStop_at g h, bind_ok (curWord_at h)]
  clear e
  have hnnd : c.ndim * (c.raw.iu + c.raw.iv + c.raw.ia) * c.raw.numnp = offThermal c - offCoords c := by
    rw [show offThermal c - offCoords c = nodeLen c c.raw.iu + nodeLen c c.raw.iv + nodeLen c c.raw.ia by omega]
    rw [nodeLen_eq k3, nodeLen_eq k4, nodeLen_eq k5, k1, Nat.mul_add, Nat.mul_add, Nat.add_mul, Nat.add_mul]
  have hlen : sub64 (k + offThermal c) (k + offCoords c) = offThermal c - offCoords c := by
    have := sub64_add (k + offCoords c) (offThermal c - offCoords c) (by omega)
    rw [← this]
    congr 1
    omega
  rw [hnnd, hlen, Nat.mod_eq_of_lt (a := offThermal c - offCoords c) (by omega), if_neg (by simp)]
  exact readElements_at g ok' h hw

theorem setFirst_add (first : Bool) (k n old : Nat) (h : k + n < u64) :
    setFirst first (k + n) k old = if first then n else old := by
  unfold setFirst
  rw [sub64_add _ _ h]

theorem setAll {c : Cda} {first : Bool} {k : Nat} {d : Ptrs} (hw : k + stateLen c < u64) :
    setThick first (k + offThick c) k
        (setShell first (k + offShell c) k (setBeam first (k + offBeam c) k
          (setSolid first (k + offSolid c) k (setAcc c first (k + offAcc c) k
            (setVel c first (k + offVel c) k (setCoords c first (k + offCoords c) k d)))))) =
      if first then statePtrs c d else d := by
  have o2 : offVel c = offCoords c + nodeLen c c.raw.iu := rfl
  have o3 : offAcc c = offVel c + nodeLen c c.raw.iv := rfl
  have o4 : offThermal c = offAcc c + nodeLen c c.raw.ia := rfl
  have o5 : offSolid c = offThermal c + c.ext.nt3d * c.raw.nel8.toNat := rfl
  have o6 : offBeam c = offSolid c + c.raw.nv3d * c.raw.nel8.toNat := rfl
  have o7 : offShell c = offBeam c + c.raw.nv1d * c.raw.nel2 := rfl
  have o8 : offThick c = offShell c + c.raw.nv2d * c.raw.nel4 := rfl
  have o9 : offDeletion c = offThick c + c.raw.nv3dt * c.raw.nelt := rfl
  have o10 : stateLen c = offDeletion c + deletionLen c := rfl
  unfold setThick setShell setBeam setSolid setAcc setVel setCoords setNode
  have e : ∀ n old, n ≤ stateLen c → setFirst first (k + n) k old = if first then n else old :=
    fun n old hn => setFirst_add first k n old (by omega)
  simp only [e (offThick c) _ (by omega), e (offShell c) _ (by omega), e (offBeam c) _ (by omega),
    e (offSolid c) _ (by omega), e (offAcc c) _ (by omega), e (offVel c) _ (by omega),
    e (offCoords c) _ (by omega)]
  cases first
  · simp
  · simp [statePtrs]

theorem readState_at {b : Buf} (g : Good b) {c : Cda} {numrbs : Nat} (ok : StateOk c numrbs)
    {first : Bool} {d : Ptrs} {k : Nat} {s : S} (h : At b k s) (hne : wordBytes b k ≠ eofBytes b.ws)
    (hw : k + stateLen c < words b) :
    ∃ s', readState c numrbs first d s =
        .ok ((if first then statePtrs c d else d, .state k), s') ∧ At b (k + stateLen c) s' := by
  have hws := words_small g
  have hu : u64 = 18446744073709551616 := rfl
  have ok' := ok
  obtain ⟨k1, k2, k3, k4, k5, k6⟩ := ok
  have hlen : stateLen c = offCoords c + (nodeLen c c.raw.iu + nodeLen c c.raw.iv + nodeLen c c.raw.ia +
    c.ext.nt3d * c.raw.nel8.toNat + c.raw.nv3d * c.raw.nel8.toNat + c.raw.nv1d * c.raw.nel2 +
    c.raw.nv2d * c.raw.nel4 + c.raw.nv3dt * c.raw.nelt + deletionLen c) := by
    unfold stateLen offDeletion offThick offShell offBeam offSolid offThermal offAcc offVel
    omega
  have o1 : offCoords c = 1 + c.raw.nglbv := rfl
  unfold readState
  rw [bind_ok (curWord_at h), bind_ok (wordSize_at h)]
  obtain ⟨t, e, h⟩ := rdBytes_at g h (n := 1) (by omega) Nat.zero_lt_one
  rw [Nat.one_mul] at e
  replace h := h.at
  rw [bind_ok e, bind_ok (hasErr_at g h)]
  unfold wordBytes at hne
  simp only [Bool.false_eq_true, if_false]
  rw [if_neg hne, bind_ok (curWord_at h)]
  clear e
  obtain ⟨t, e, h⟩ := skipAll_at g (globals c numrbs) h (by rw [globals_sum]; omega)
  rw [globals_sum] at h
  rw [bind_ok e, orStop_at g h]
  clear e
  have hm : c.raw.nummat8 + c.raw.nummat2 + c.raw.nummat4 + c.raw.nummatt + numrbs = matCount c numrbs := rfl
  have hs1 : sub64 (sub64 c.raw.nglbv 6) (7 * (c.raw.nummat8 + c.raw.nummat2 + c.raw.nummat4 +
      c.raw.nummatt + numrbs)) = c.raw.nglbv - (6 + 7 * matCount c numrbs) := by
    rw [hm]
    unfold sub64
    rw [hu]
    omega
  rw [hs1]
  obtain ⟨t, e, h⟩ := skip_at g h (n := c.raw.nglbv - (6 + 7 * matCount c numrbs)) (by omega)
  rw [show k + 1 + (6 + 7 * matCount c numrbs) + (c.raw.nglbv - (6 + 7 * matCount c numrbs)) =
    k + 1 + c.raw.nglbv by omega] at h
  rw [bind_ok e, orStop_at g h]
  clear e
  rw [bind_ok (curWord_at h), sub64_add _ _ (by omega), if_neg (by simp)]
  rw [show k + 1 + c.raw.nglbv = k + offCoords c by omega] at h
  obtain ⟨s', e, h⟩ := readNodes_at g ok' (first := first) (d := d) h hw
  rw [setAll (by omega)] at e
  exact ⟨s', e, h⟩

theorem readState_eof {b : Buf} (g : Good b) {c : Cda} {numrbs : Nat} {first : Bool} {d : Ptrs} {k : Nat}
    {s : S} (h : At b k s) (he : wordBytes b k = eofBytes b.ws) (hw : k < words b) :
    ∃ s', readState c numrbs first d s = .ok ((d, .eof), s') ∧ Behind b (k + 1) s' := by
  unfold readState
  rw [bind_ok (curWord_at h), bind_ok (wordSize_at h)]
  obtain ⟨t, e, h⟩ := rdBytes_at g h (n := 1) (by omega) Nat.zero_lt_one
  rw [Nat.one_mul] at e
  rw [bind_ok e, bind_ok (hasErr_at g h.at)]
  unfold wordBytes at he
  simp only [Bool.false_eq_true, if_false]
  rw [if_pos he]
  exact ⟨t, rfl, h⟩

/-! ## All states -/

/-- The pointers after some states have been found. Part of the specification, models no code. -/
def ptrsAfter (c : Cda) (d : Ptrs) (states new : List Nat) : Ptrs :=
  if states.isEmpty && !new.isEmpty then statePtrs c d else d

theorem ptrsAfter_append (c : Cda) (d : Ptrs) (a x y : List Nat) :
    ptrsAfter c (ptrsAfter c d a x) (a ++ x) y = ptrsAfter c d a (x ++ y) := by
  unfold ptrsAfter
  cases a <;> cases x <;> cases y <;> simp

theorem readStates_run {b : Buf} (g : Good b) {c : Cda} {numrbs : Nat} (ok : StateOk c numrbs) :
    ∀ (m : Nat) {k fuel : Nat} {d : Ptrs} {states : List Nat} {s : S}, At b k s →
    (∀ i, i < m → wordBytes b (k + i * stateLen c) ≠ eofBytes b.ws) →
    k + m * stateLen c < words b →
    ∃ s', At b (k + m * stateLen c) s' ∧ readStates c numrbs (m + fuel) d states s =
      readStates c numrbs fuel
        (ptrsAfter c d states ((List.range m).map (fun i => k + i * stateLen c)))
        (states ++ (List.range m).map (fun i => k + i * stateLen c)) s' := by
  intro m
  induction m with
  | zero =>
    intro k fuel d states s h _ hw
    refine ⟨s, by simpa using h, ?_⟩
    have : ptrsAfter c d states [] = d := by unfold ptrsAfter; simp
    simp [this]
  | succ m ih =>
    intro k fuel d states s h hne hw
    have hk0 := hne 0 (by omega)
    rw [Nat.zero_mul, Nat.add_zero] at hk0
    rw [Nat.succ_mul] at hw
    obtain ⟨t, e, h⟩ := readState_at g ok (first := states.isEmpty) (d := d) h hk0 (by omega)
    have hne' : ∀ i, i < m → wordBytes b (k + stateLen c + i * stateLen c) ≠ eofBytes b.ws := by
      intro i hi
      have := hne (i + 1) (by omega)
      rw [Nat.succ_mul] at this
      rw [show k + stateLen c + i * stateLen c = k + (i * stateLen c + stateLen c) by omega]
      exact this
    obtain ⟨s', h', e'⟩ := ih (fuel := fuel) (d := if states.isEmpty then statePtrs c d else d)
      (states := states ++ [k]) h hne' (by omega)
    refine ⟨s', ?_, ?_⟩
    · rw [Nat.succ_mul, show k + (m * stateLen c + stateLen c) = k + stateLen c + m * stateLen c by omega]
      exact h'
    · rw [show m + 1 + fuel = (m + fuel) + 1 by omega]
      show (readState c numrbs states.isEmpty d >>= _) s = _
      rw [bind_ok e]
      show readStates c numrbs (m + fuel) _ (states ++ [k]) t = _
      rw [e']
      have hr : (List.range (m + 1)).map (fun i => k + i * stateLen c) =
          [k] ++ (List.range m).map (fun i => k + stateLen c + i * stateLen c) := by
        rw [List.range_succ_eq_map, List.map_cons, List.map_map]
        simp only [Nat.zero_mul, Nat.add_zero, List.singleton_append, List.cons.injEq, true_and]
        apply List.map_congr_left
        intro i _
        simp only [Function.comp_apply, Nat.succ_mul]
        omega
      rw [hr, ← ptrsAfter_append, List.append_assoc]
      have : ptrsAfter c d states [k] = if states.isEmpty then statePtrs c d else d := by
        unfold ptrsAfter
        simp
      rw [this]

/-- The end of file `j`, seen from a position behind a word of file `j`. -/
theorem toNextFile_at {b : Buf} (g : Good b) {pre rest : List Bytes} {f : Bytes} {k : Nat} {s : S}
    (hfiles : b.files = pre ++ f :: rest) (h : Behind b k s)
    (h1 : pre.flatten.length < k * b.ws) (h2 : k * b.ws ≤ (pre ++ [f]).flatten.length) :
    ∃ s', toNextFile s = .ok (!rest.isEmpty, s') ∧ s'.b = b ∧
      (rest ≠ [] → At b ((pre ++ [f]).flatten.length / b.ws) s') := by
  obtain ⟨hb, q, hp, hv, ha, hwq, hpos⟩ := h
  have hget : b.files[pre.length]? = some f := by rw [hfiles]; simp
  have hbase : base b.files pre.length = pre.flatten.length := by unfold base; rw [hfiles]; simp
  have hbase' : base b.files (pre.length + 1) = (pre ++ [f]).flatten.length := by
    rw [base_succ hget, hbase]; simp
  have hv' : Valid b ⟨pre.length, k * b.ws - pre.flatten.length, k⟩ := by
    refine ⟨f, hget, ?_⟩
    simp only [List.flatten_append, List.flatten_cons, List.flatten_nil, List.append_nil, List.length_append] at h2
    show k * b.ws - pre.flatten.length ≤ f.length
    omega
  obtain ⟨u1, u2⟩ := pos_unique hv hv' hpos (by simp only; omega)
    (by rw [ha]; unfold absPos; simp only [hbase]; omega)
  simp only at u1 u2
  unfold toNextFile nextFile
  rw [hb, hp]
  simp only [u1, hget]
  have hlen : b.files.length = pre.length + 1 + rest.length := by rw [hfiles]; simp; omega
  by_cases hr : rest = []
  · subst hr
    rw [if_pos (by simp at hlen; omega)]
    exact ⟨⟨b, none⟩, rfl, rfl, fun h => absurd rfl h⟩
  · have hrl : 0 < rest.length := List.length_pos_iff.2 hr
    rw [if_neg (by omega)]
    have hre : rest.isEmpty = false := by cases rest <;> simp_all
    refine ⟨⟨b, some ⟨pre.length + 1, 0, q.word + (f.length - q.pos) / b.ws⟩⟩, by rw [hre]; rfl, rfl, fun _ => ?_⟩
    have hd := aligned_base g.aligned (pre.length + 1)
    rw [hbase'] at hd
    obtain ⟨m, hm⟩ := hd
    have hdiv : (pre ++ [f]).flatten.length / b.ws = m := by rw [hm, Nat.mul_div_cancel_left _ g.ws]
    have hlt : pre.length + 1 < b.files.length := by omega
    refine ⟨rfl, _, rfl, ⟨b.files[pre.length + 1], List.getElem?_eq_getElem hlt, Nat.zero_le _⟩, ?_, ?_⟩
    · unfold absPos
      simp only [hbase', hdiv]
      rw [hm, Nat.mul_comm]
      rfl
    · simp only [hdiv, hwq, u2]
      have hflen : f.length - (k * b.ws - pre.flatten.length) = (m - k) * b.ws := by
        rw [Nat.sub_mul]
        have : (pre ++ [f]).flatten.length = pre.flatten.length + f.length := by simp
        rw [this] at hm h2
        rw [Nat.mul_comm m]
        omega
      rw [hflen, Nat.mul_div_cancel _ g.ws]
      have : k ≤ m := by
        rw [hm, Nat.mul_comm] at h2
        exact Nat.le_of_mul_le_mul_left h2 g.ws
      omega

/-- Word `i` of a file. Part of the specification, models no code. -/
def fileWord (ws : Nat) (f : Bytes) (i : Nat) : Bytes := (f.drop (i * ws)).take ws

/-- A file with `n` states of `len` words, the end marker, and anything behind it.
Part of the specification, models no code. -/
structure StateFile (ws len : Nat) (f : Bytes) (n : Nat) : Prop where
  size : (n * len + 1) * ws ≤ f.length
  states : ∀ i, i < n → fileWord ws f (i * len) ≠ eofBytes ws
  eof : fileWord ws f (n * len) = eofBytes ws

/-- Where the states of such files start; `off` is the number of words in front of the files.
Part of the specification, models no code. -/
def starts (ws len : Nat) : (off : Nat) → List Bytes → List Nat → List Nat
  | off, f :: fs, n :: ns =>
    (List.range n).map (fun i => off + i * len) ++ starts ws len (off + f.length / ws) fs ns
  | _, _, _ => []

theorem wordBytes_file {b : Buf} (g : Good b) {pre rest : List Bytes} {f : Bytes}
    (hfiles : b.files = pre ++ f :: rest) {i : Nat} (hi : (i + 1) * b.ws ≤ f.length) :
    wordBytes b (pre.flatten.length / b.ws + i) = fileWord b.ws f i := by
  have hal : b.ws ∣ pre.flatten.length := by
    have := aligned_base g.aligned pre.length
    unfold base at this
    rw [hfiles] at this
    simpa [-List.length_flatten] using this
  have hmul : (pre.flatten.length / b.ws + i) * b.ws = pre.flatten.length + i * b.ws := by
    rw [Nat.add_mul, Nat.div_mul_cancel hal]
  rw [Nat.add_mul, Nat.one_mul] at hi
  unfold wordBytes fileWord Buf.bytes
  rw [hmul, hfiles, List.flatten_append, List.flatten_cons, ← List.drop_drop, List.drop_left,
    List.drop_append_of_le_length (by omega), List.take_append_of_le_length (by simp; omega)]

theorem readStates_at {b : Buf} (g : Good b) {c : Cda} {numrbs : Nat} (ok : StateOk c numrbs) :
    ∀ (rest : List Bytes) (pre : List Bytes) (ns : List Nat) {fuel : Nat} {d : Ptrs} {states : List Nat} {s : S},
    b.files = pre ++ rest → rest ≠ [] → rest.length = ns.length →
    (∀ (j : Nat) (f : Bytes) (n : Nat), rest[j]? = some f → ns[j]? = some n → StateFile b.ws (stateLen c) f n) →
    At b (pre.flatten.length / b.ws) s → ns.sum + ns.length ≤ fuel →
    ∃ s', readStates c numrbs fuel d states s =
      .ok ((ptrsAfter c d states (starts b.ws (stateLen c) (pre.flatten.length / b.ws) rest ns),
        states ++ starts b.ws (stateLen c) (pre.flatten.length / b.ws) rest ns), s') ∧ s'.b = b := by
  intro rest
  induction rest with
  | nil => intro pre ns fuel d states s _ h; exact absurd rfl h
  | cons f rest ih =>
    intro pre ns fuel d states s hfiles _ hlen hst h hfuel
    cases ns with
    | nil => simp at hlen
    | cons n ns =>
      obtain ⟨z1, z2, z3⟩ := hst 0 f n rfl rfl
      have hal : b.ws ∣ pre.flatten.length := by
        have := aligned_base g.aligned pre.length
        unfold base at this
        rw [hfiles] at this
        simpa [-List.length_flatten] using this
      have half : b.ws ∣ f.length := g.aligned f (by rw [hfiles]; simp)
      have hwlt : pre.flatten.length / b.ws + n * stateLen c < words b := by
        have h1 : (pre.flatten.length / b.ws + n * stateLen c + 1) * b.ws ≤ b.bytes.length := by
          unfold Buf.bytes
          rw [hfiles, List.flatten_append, List.flatten_cons, List.length_append, List.length_append,
            Nat.add_assoc (_ / _), Nat.add_mul, Nat.div_mul_cancel hal]
          omega
        have := (le_words g).2 h1
        omega
      have hword : ∀ i, i ≤ n → wordBytes b (pre.flatten.length / b.ws + i * stateLen c) =
          fileWord b.ws f (i * stateLen c) := by
        intro i hi
        apply wordBytes_file g hfiles
        have : i * stateLen c ≤ n * stateLen c := Nat.mul_le_mul_right _ hi
        exact Nat.le_trans (Nat.mul_le_mul_right _ (by omega)) z1
      simp only [List.sum_cons, List.length_cons] at hfuel
      obtain ⟨fuel', rfl⟩ : ∃ f', fuel = n + (f' + 1) := ⟨fuel - n - 1, by omega⟩
      obtain ⟨t, h, e⟩ := readStates_run g ok n (fuel := fuel' + 1) (d := d) (states := states) h
        (fun i hi => by rw [hword i (by omega)]; exact z2 i hi) hwlt
      obtain ⟨t', e1, h'⟩ := readState_eof g (c := c) (numrbs := numrbs)
        (first := (states ++ (List.range n).map (fun i => pre.flatten.length / b.ws + i * stateLen c)).isEmpty)
        (d := ptrsAfter c d states ((List.range n).map (fun i => pre.flatten.length / b.ws + i * stateLen c)))
        h (by rw [hword n (Nat.le_refl _)]; exact z3) hwlt
      have hkw : (pre.flatten.length / b.ws + n * stateLen c + 1) * b.ws =
          pre.flatten.length + (n * stateLen c + 1) * b.ws := by
        rw [Nat.add_assoc, Nat.add_mul, Nat.div_mul_cancel hal]
      have hpos : 0 < (n * stateLen c + 1) * b.ws := Nat.mul_pos (by omega) g.ws
      obtain ⟨t'', e2, e3, h''⟩ := toNextFile_at g hfiles h' (by rw [hkw]; omega)
        (by rw [hkw]; simp [-List.length_flatten]; omega)
      rw [e]
      have step : ∀ dd ss, readStates c numrbs (fuel' + 1) dd ss t = (do
          let r ← readState c numrbs ss.isEmpty dd
          match r with
          | (d, .finish) => pure (d, ss)
          | (d, .state start) => readStates c numrbs fuel' d (ss ++ [start])
          | (d, .eof) =>
            if ← toNextFile then readStates c numrbs fuel' d ss
            else pure (d, ss)) t := fun _ _ => rfl
      rw [step, bind_ok e1]
      simp only
      rw [bind_ok e2]
      have hoff : (pre ++ [f]).flatten.length / b.ws = pre.flatten.length / b.ws + f.length / b.ws := by
        simp only [List.flatten_append, List.flatten_cons, List.flatten_nil, List.append_nil, List.length_append]
        obtain ⟨m, hm⟩ := hal
        rw [hm, Nat.mul_add_div g.ws, Nat.mul_div_cancel_left _ g.ws]
      by_cases hr : rest = []
      · subst hr
        have hns : ns = [] := by cases ns <;> simp_all
        subst hns
        refine ⟨t'', ?_, e3⟩
        simp only [List.isEmpty_nil, Bool.not_true, Bool.false_eq_true, if_false, starts, List.append_nil]
        rfl
      · have hre : rest.isEmpty = false := by cases rest <;> simp_all
        rw [hre]
        have hat := h'' hr
        obtain ⟨s', e4, e5⟩ := ih (pre ++ [f]) ns (fuel := fuel')
          (d := ptrsAfter c d states ((List.range n).map (fun i => pre.flatten.length / b.ws + i * stateLen c)))
          (states := states ++ (List.range n).map (fun i => pre.flatten.length / b.ws + i * stateLen c))
          (by rw [hfiles]; simp) hr (by simpa using hlen)
          (fun j f' n' hj hn => hst (j + 1) f' n' (by simpa using hj) (by simpa using hn)) hat (by omega)
        refine ⟨s', ?_, e5⟩
        show readStates c numrbs fuel' _ _ t'' = _
        rw [e4, ptrsAfter_append, hoff]
        simp only [starts, List.append_assoc]

end Dyna.D3
