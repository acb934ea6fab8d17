import Verif.D3PlotInv
import Verif.D3PlotTotal
/-!
# The pointers to the ids

They are set once, while the ids are read (`/repo/src/d3plot_data.c:102-251`).
-/

namespace Dyna.D3

/-- The pointers to the ids are the same. Part of the specification, models no code. -/
def SameIds (d d' : Ptrs) : Prop :=
  d'.nodeIds = d.nodeIds ∧ d'.el8Ids = d.el8Ids ∧ d'.el2Ids = d.el2Ids ∧ d'.el4Ids = d.el4Ids ∧
    d'.eltIds = d.eltIds ∧ d'.partIds = d.partIds

theorem SameIds.refl (d : Ptrs) : SameIds d d := ⟨rfl, rfl, rfl, rfl, rfl, rfl⟩
theorem SameIds.trans {a b c : Ptrs} (h : SameIds a b) (h' : SameIds b c) : SameIds a c :=
  ⟨h'.1.trans h.1, h'.2.1.trans h.2.1, h'.2.2.1.trans h.2.2.1, h'.2.2.2.1.trans h.2.2.2.1,
    h'.2.2.2.2.1.trans h.2.2.2.2.1, h'.2.2.2.2.2.trans h.2.2.2.2.2⟩

theorem readHeader_ids : ∀ (fuel : Nat) {d d' : Ptrs} {s s' : S},
    readHeader d fuel s = .ok (d', s') → SameIds d d' := by
  intro fuel
  induction fuel with
  | zero => intro d d' s s' e; cases e
  | succ n ih =>
    intro d d' s s' e
    unfold readHeader at e
    iterate 3 obtain ⟨_, _, _, e⟩ := bind_inv e
    split at e
    · cases e
    split at e
    · iterate 2 obtain ⟨_, _, _, e⟩ := bind_inv e
      split at e
      · cases e
      · exact ih e
    split at e
    · iterate 2 obtain ⟨_, _, _, e⟩ := bind_inv e
      split at e
      · cases e
      iterate 3 obtain ⟨_, _, _, e⟩ := bind_inv e
      split at e
      · cases e
      · refine SameIds.trans ?_ (ih e)
        exact ⟨rfl, rfl, rfl, rfl, rfl, rfl⟩
    split at e
    · iterate 2 obtain ⟨_, _, _, e⟩ := bind_inv e
      split at e
      · cases e
      iterate 2 obtain ⟨_, _, _, e⟩ := bind_inv e
      split at e
      · cases e
      · exact ih e
    split at e
    · iterate 2 obtain ⟨_, _, _, e⟩ := bind_inv e
      split at e
      · cases e
      iterate 2 obtain ⟨_, _, _, e⟩ := bind_inv e
      split at e
      · cases e
      · exact ih e
    split at e
    · cases e; exact SameIds.refl _
    · cases e

theorem orStop_ids {d0 d : Ptrs} (hd : SameIds d0 d) {m : M (Ptrs × Found)}
    (h : ∀ s a s', m s = .ok (a, s') → SameIds d0 a.1)
    {s s' : S} {a : Ptrs × Found} (e : orStop d m s = .ok (a, s')) : SameIds d0 a.1 := by
  unfold orStop at e
  obtain ⟨x, t, e1, e2⟩ := bind_inv e
  split at e2
  · obtain ⟨y, t', e3, e4⟩ := bind_inv e2
    cases e4
    exact hd
  · exact h _ _ _ e2

theorem setElements_ids (first : Bool) (x y z w start : Nat) (d : Ptrs) :
    SameIds d (setThick first x start (setShell first y start (setBeam first z start
      (setSolid first w start d)))) := by
  have h0 : ∀ d', SameIds d' (setSolid first w start d') := fun _ => ⟨rfl, rfl, rfl, rfl, rfl, rfl⟩
  have h1 : ∀ d', SameIds d' (setBeam first z start d') := fun _ => ⟨rfl, rfl, rfl, rfl, rfl, rfl⟩
  have h2 : ∀ d', SameIds d' (setShell first y start d') := fun _ => ⟨rfl, rfl, rfl, rfl, rfl, rfl⟩
  have h3 : ∀ d', SameIds d' (setThick first x start d') := fun _ => ⟨rfl, rfl, rfl, rfl, rfl, rfl⟩
  exact (((h0 _).trans (h1 _)).trans (h2 _)).trans (h3 _)

theorem readElements_ids {c : Cda} {first : Bool} {start : Nat} {d : Ptrs} {s s' : S} {a : Ptrs × Found}
    (e : readElements c first start d s = .ok (a, s')) : SameIds d a.1 := by
  unfold readElements at e
  obtain ⟨_, t, _, e⟩ := bind_inv e
  refine orStop_ids (SameIds.refl d) ?_ e
  intro s a s' e
  iterate 8 obtain ⟨_, _, _, e⟩ := bind_inv e
  refine orStop_ids ?_ ?_ e
  · exact setElements_ids _ _ _ _ _ _ _
  intro s a s' e
  obtain ⟨_, _, _, e⟩ := bind_inv e
  split at e
  · cases e
  · obtain ⟨_, _, _, e⟩ := bind_inv e
    refine orStop_ids ?_ ?_ e
    · exact setElements_ids _ _ _ _ _ _ _
    intro s a s' e
    cases e
    exact setElements_ids _ _ _ _ _ _ _

theorem setNodes_ids (c : Cda) (first : Bool) (x y z start : Nat) (d : Ptrs) :
    SameIds d (setAcc c first x start (setVel c first y start (setCoords c first z start d))) := by
  have h1 : SameIds d (setCoords c first z start d) := ⟨rfl, rfl, rfl, rfl, rfl, rfl⟩
  have h2 : ∀ d', SameIds d' (setVel c first y start d') := fun _ => ⟨rfl, rfl, rfl, rfl, rfl, rfl⟩
  have h3 : ∀ d', SameIds d' (setAcc c first x start d') := fun _ => ⟨rfl, rfl, rfl, rfl, rfl, rfl⟩
  exact (h1.trans (h2 _)).trans (h3 _)

theorem readNodes_ids {c : Cda} {first : Bool} {start : Nat} {d : Ptrs} {s s' : S} {a : Ptrs × Found}
    (e : readNodes c first start d s = .ok (a, s')) : SameIds d a.1 := by
  unfold readNodes at e
  iterate 6 obtain ⟨_, _, _, e⟩ := bind_inv e
  refine orStop_ids ?_ ?_ e
  · exact setNodes_ids _ _ _ _ _ _ _
  intro s a s' e
  obtain ⟨_, _, _, e⟩ := bind_inv e
  split at e
  · cases e
  · refine SameIds.trans ?_ (readElements_ids e)
    exact setNodes_ids _ _ _ _ _ _ _

theorem readState_ids {c : Cda} {n : Nat} {first : Bool} {d : Ptrs} {s s' : S} {a : Ptrs × Found}
    (e : readState c n first d s = .ok (a, s')) : SameIds d a.1 := by
  unfold readState at e
  iterate 4 obtain ⟨_, _, _, e⟩ := bind_inv e
  split at e
  · cases e
  · split at e
    · cases e
      exact SameIds.refl d
    · iterate 2 obtain ⟨_, _, _, e⟩ := bind_inv e
      refine orStop_ids (SameIds.refl d) ?_ e
      intro s a s' e
      obtain ⟨_, _, _, e⟩ := bind_inv e
      refine orStop_ids (SameIds.refl d) ?_ e
      intro s a s' e
      obtain ⟨_, _, _, e⟩ := bind_inv e
      split at e
      · cases e
      · exact readNodes_ids e

theorem readStates_ids {c : Cda} {n : Nat} : ∀ (fuel : Nat) {d : Ptrs} {l : List Nat} {s s' : S}
    {a : Ptrs × List Nat}, readStates c n fuel d l s = .ok (a, s') → SameIds d a.1 := by
  intro fuel
  induction fuel with
  | zero => intro d l s s' a e; cases e
  | succ k ih =>
    intro d l s s' a e
    unfold readStates at e
    obtain ⟨⟨d', f⟩, t, e1, e⟩ := bind_inv e
    have h := readState_ids e1
    cases f with
    | finish => cases e; exact h
    | state st => exact h.trans (ih e)
    | eof =>
      obtain ⟨x, t', e2, e⟩ := bind_inv e
      split at e
      · exact h.trans (ih e)
      · cases e
        exact h


theorem readBody_ids {fuel : Nat} {c : Cda} {s s' : S} {n : Nat} {d : Ptrs} {l : List Nat}
    (e : readBody fuel c s = .ok ((n, d, l), s')) :
    ∃ d0 t d1 t1, readGeometry c {} s = .ok (d0, t) ∧ readUserIds c d0 t = .ok ((d1, n), t1) ∧ SameIds d1 d := by
  unfold readBody at e
  obtain ⟨d0, t0, e1, e⟩ := bind_inv e
  obtain ⟨⟨d1, n1⟩, t1, e2, e⟩ := bind_inv e
  iterate 4 obtain ⟨_, _, _, e⟩ := bind_inv e
  split at e
  · exact absurd e (by intro h; unfold failClose at h; split at h <;> cases h)
  obtain ⟨d3, t3, e3, e⟩ := bind_inv e
  split at e
  · exact absurd e (by intro h; unfold failClose at h; split at h <;> cases h)
  obtain ⟨x, t4, e4, e⟩ := bind_inv e
  split at e
  · exact absurd e (by intro h; unfold failClose at h; split at h <;> cases h)
  obtain ⟨⟨d5, l5⟩, t5, e5, e⟩ := bind_inv e
  cases e
  exact ⟨d0, t0, d1, t1, e1, e2, (readHeader_ids _ e3).trans (readStates_ids _ e5)⟩

theorem hasErr_inv {x : Bool} {s s' : S} (h : hasErr s = .ok (x, s')) : x = s.b.err ∧ s' = s := by
  cases h
  exact ⟨rfl, rfl⟩

theorem readUserIds_err {c : Cda} {d : Ptrs} {s s' : S} {a : Ptrs × Nat} (hn : c.raw.narbs ≠ 0)
    (e : readUserIds c d s = .ok (a, s')) : ¬ Dead s' := by
  unfold readUserIds at e
  rw [if_neg hn] at e
  iterate 3 obtain ⟨_, _, _, e⟩ := bind_inv e
  replace e := (ite_fail_inv e).2
  iterate 7 obtain ⟨_, _, _, e⟩ := bind_inv e
  replace e := (ite_fail_inv e).2
  replace e := (ite_fail_inv e).2
  replace e := (ite_fail_inv e).2
  replace e := (ite_fail_inv e).2
  replace e := (ite_fail_inv e).2
  replace e := (ite_fail_inv e).2
  iterate 2 obtain ⟨_, _, _, e⟩ := bind_inv e
  replace e := (ite_fail_inv e).2
  iterate 2 obtain ⟨_, _, _, e⟩ := bind_inv e
  obtain ⟨x, t, e1, e⟩ := bind_inv e
  obtain ⟨h1, e⟩ := ite_fail_inv e
  obtain ⟨w, t2, e2, e⟩ := bind_inv e
  replace e := (ite_fail_inv e).2
  obtain ⟨rfl, rfl⟩ := hasErr_inv e1
  cases e2
  cases e
  exact fun hd => h1 hd.2

theorem mono_hasErr {α : Type} {m : M α} : Mono (hasErr >>= fun x => if x = true then fail else m) := by
  intro s a s' hd h
  rw [bind_ok (dead_hasErr hd)] at h
  cases h

/-- If the ids are read without an error, the section is well formed and complete. -/
theorem readUserIds_inv {b : Buf} (g : Good b) {c : Cda} {k : Nat} {s s' : S} {d : Ptrs} {a : Ptrs × Nat}
    (h : At b k s) (hn : c.raw.narbs ≠ 0) (h8 : 0 ≤ c.raw.nel8)
    (hs : ∀ i, wordAt b i < 2 ^ 32) (hm : c.raw.nmmat < 2 ^ 32) (hnar : c.raw.narbs < 2 ^ 32) (h8' : c.raw.nel8 < 2 ^ 32)
    (e : readUserIds c d s = .ok (a, s')) :
    IdsOk b c k ∧ k + c.raw.narbs < words b := by
  have hu : u64 = 18446744073709551616 := rfl
  have hws := words_small g
  have hl := readUserIds_err hn e
  have h88 : toU64 c.raw.nel8 = c.raw.nel8.toNat := toU64_nonneg h8 (by omega)
  unfold readUserIds at e
  rw [if_neg hn, bind_ok (curWord_at h)] at e
  obtain ⟨t, h, e⟩ := rdSigned_step g h e hl (fun _ => mono_hasErr)
  replace h := h.at
  rw [bind_ok (hasErr_at g h)] at e
  simp only [Bool.false_eq_true, if_false] at e
  obtain ⟨t, h, -, e⟩ := skip_step g (small_skip g h (by omega)) h e hl (mono_rd _)
  obtain ⟨t, h, e⟩ := rd_step g h e hl (fun _ => mono_rd _)
  replace h := h.at
  obtain ⟨t, h, e⟩ := rd_step g h e hl (fun _ => mono_rd _)
  replace h := h.at
  obtain ⟨t, h, e⟩ := rd_step g h e hl (fun _ => mono_rd _)
  replace h := h.at
  obtain ⟨t, h, e⟩ := rd_step g h e hl (fun _ => mono_rd _)
  replace h := h.at
  obtain ⟨t, h, e⟩ := rd_step g h e hl (fun _ => mono_hasErr)
  replace h := h.at
  rw [bind_ok (hasErr_at g h)] at e
  simp only [Bool.false_eq_true, if_false] at e
  obtain ⟨n1, e⟩ := ite_fail_inv e
  obtain ⟨n2, e⟩ := ite_fail_inv e
  obtain ⟨n3, e⟩ := ite_fail_inv e
  obtain ⟨n4, e⟩ := ite_fail_inv e
  obtain ⟨n5, e⟩ := ite_fail_inv e
  simp only [ne_eq, Decidable.not_not] at n1 n2 n3 n4 n5
  rw [n1, n2, n3, n4, n5, h88] at e
  rw [h88] at n2
  have b1 := hs (k + 1 + 4)
  have b3 := hs (k + 1 + 4 + 1 + 1)
  have b4 := hs (k + 1 + 4 + 1 + 1 + 1)
  have b5 := hs (k + 1 + 4 + 1 + 1 + 1 + 1)
  rw [n1] at b1
  rw [n3] at b3
  rw [n4] at b4
  rw [n5] at b5
  have fin : ∀ (t : S) (head mats rbs : Nat) (neg : Prop) [Decidable neg], head ≤ 16 → mats < 2 ^ 32 → At b (k + head) t →
      (do
        let p0 ← curWord
        let p1 := (p0 + c.raw.numnp) % u64
        let p2 := (p1 + c.raw.nel8.toNat) % u64
        let p3 := (p2 + c.raw.nel2) % u64
        let p4 := (p3 + c.raw.nel4) % u64
        let p5 := (p4 + c.raw.nelt) % u64
        let p6 := (p5 + 3 * mats) % u64
        skip (sub64 p6 p0)
        if ← hasErr then fail else do
        let fin ← curWord
        if sub64 fin k ≠ c.raw.narbs then fail
        else pure ({ d with
          nodeIds := p0, el8Ids := p1, el2Ids := p2, el4Ids := p3, eltIds := p4
          partIds := if neg then p5 else d.partIds }, rbs) : M (Ptrs × Nat)) t = .ok (a, s') →
      c.raw.narbs = head + c.raw.numnp + c.raw.nel8.toNat + c.raw.nel2 + c.raw.nel4 + c.raw.nelt + 3 * mats ∧
        k + c.raw.narbs < words b := by
    intro t head mats rbs neg _ q1 q2 h e
    have hk := at_le g h
    rw [bind_ok (curWord_at h)] at e
    rw [Nat.mod_eq_of_lt (a := k + head + c.raw.numnp) (by omega),
      Nat.mod_eq_of_lt (a := k + head + c.raw.numnp + c.raw.nel8.toNat) (by omega),
      Nat.mod_eq_of_lt (a := k + head + c.raw.numnp + c.raw.nel8.toNat + c.raw.nel2) (by omega),
      Nat.mod_eq_of_lt (a := k + head + c.raw.numnp + c.raw.nel8.toNat + c.raw.nel2 + c.raw.nel4) (by omega),
      Nat.mod_eq_of_lt (a := k + head + c.raw.numnp + c.raw.nel8.toNat + c.raw.nel2 + c.raw.nel4 + c.raw.nelt)
        (by omega),
      Nat.mod_eq_of_lt (a := k + head + c.raw.numnp + c.raw.nel8.toNat + c.raw.nel2 + c.raw.nel4 + c.raw.nelt +
        3 * mats) (by omega)] at e
    have hsub : sub64 (k + head + c.raw.numnp + c.raw.nel8.toNat + c.raw.nel2 + c.raw.nel4 + c.raw.nelt +
        3 * mats) (k + head) = c.raw.numnp + c.raw.nel8.toNat + c.raw.nel2 + c.raw.nel4 + c.raw.nelt + 3 * mats := by
      rw [show k + head + c.raw.numnp + c.raw.nel8.toNat + c.raw.nel2 + c.raw.nel4 + c.raw.nelt + 3 * mats =
        k + head + (c.raw.numnp + c.raw.nel8.toNat + c.raw.nel2 + c.raw.nel4 + c.raw.nelt + 3 * mats) by omega]
      exact sub64_add _ _ (by omega)
    rw [hsub] at e
    obtain ⟨t, h, hlt, e⟩ := skip_step g (small_skip g h (by omega)) h e hl mono_hasErr
    rw [bind_ok (hasErr_at g h)] at e
    simp only [Bool.false_eq_true, if_false] at e
    rw [bind_ok (curWord_at h)] at e
    obtain ⟨n6, e⟩ := ite_fail_inv e
    simp only [ne_eq, Decidable.not_not] at n6
    rw [show k + head + (c.raw.numnp + c.raw.nel8.toNat + c.raw.nel2 + c.raw.nel4 + c.raw.nelt + 3 * mats) =
      k + (head + c.raw.numnp + c.raw.nel8.toNat + c.raw.nel2 + c.raw.nel4 + c.raw.nelt + 3 * mats) by omega,
      sub64_add _ _ (by omega)] at n6
    omega
  have ok : ∀ head mats, idHead b k = head → idMats b c k = mats →
      c.raw.narbs = head + c.raw.numnp + c.raw.nel8.toNat + c.raw.nel2 + c.raw.nel4 + c.raw.nelt + 3 * mats ∧
        k + c.raw.narbs < words b → IdsOk b c k ∧ k + c.raw.narbs < words b := by
    intro head mats q1 q2 q
    refine ⟨⟨n1, ?_, n3, n4, n5, by rw [q1, q2]; exact q.1⟩, q.2⟩
    change wordAt b (k + 6) = _ at n2
    omega
  by_cases hneg : signed b.ws (wordAt b k) < 0
  · rw [if_pos hneg] at e
    refine ok 16 (wordAt b (k + 15)) (by unfold idHead; rw [if_pos hneg]) (by unfold idMats; rw [if_pos hneg]) ?_
    obtain ⟨⟨n, m⟩, t', e', e⟩ := bind_inv e
    simp only at e
    obtain ⟨x, t2, e2, e⟩ := bind_inv e
    obtain ⟨rfl, rfl⟩ := hasErr_inv e2
    obtain ⟨q1, e⟩ := ite_fail_inv e
    have q1' : ¬ Dead t2 := fun hd => q1 ⟨hneg, hd.2⟩
    obtain ⟨t1, h, -, e'⟩ := skip_step g (small_skip g h (by omega)) h e' q1' (mono_rd _)
    obtain ⟨t1, h, e'⟩ := rd_step g h e' q1' (fun _ => mono_rd _)
    replace h := h.at
    obtain ⟨t1, h, e'⟩ := rd_step g h e' q1' (fun _ => mono_pure _)
    replace h := h.at
    cases e'
    exact fin _ 16 (wordAt b (k + 15)) _ (signed b.ws (wordAt b k) < 0) (by omega) (hs _) h e
  · rw [if_neg hneg] at e
    refine ok 10 c.raw.nmmat (by unfold idHead; rw [if_neg hneg]) (by unfold idMats; rw [if_neg hneg]) ?_
    rw [bind_ok (pure_eq _ _)] at e
    simp only at e
    rw [bind_ok (hasErr_at g h)] at e
    simp only [Bool.false_eq_true, and_false, if_false] at e
    exact fin _ 10 c.raw.nmmat 0 (signed b.ws (wordAt b k) < 0) (by omega) hm h e

end Dyna.D3
