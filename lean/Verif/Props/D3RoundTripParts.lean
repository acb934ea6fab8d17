import Verif.Props.D3RoundTripValues
import Verif.Props.D3PartNodes
/-!
# C105: the parts of a database that is written as the format prescribes
-/

namespace Dyna.D3

/-- Specification: index and id of the elements whose word `k` (the material) is `w`, in the order in which they are written. -/
def writtenWith (w k : Nat) (els : List (List Nat)) (ids : List Nat) : List (Nat × Nat) :=
  ((List.range els.length).filter fun i => (els.getD i []).getD k 0 == w).map fun i => (i, ids.getD i 0)

/-- Specification: `y` is the id of the node that one of the first `n` words of an element with the material `w` (its word `k`) names.
Words count the nodes from 1. -/
def WrittenNode (nodeIds : List Nat) (n w k : Nat) (els : List (List Nat)) (y : Nat) : Prop :=
  ∃ e ∈ els, e.getD k 0 = w ∧ ∃ i, i < n ∧ nodeIds[e.getD i 0 - 1]? = some y

/-- Specification: the ids of the elements of each kind ascend, and the elements name nodes that exist (a beam need not have an
orientation node). -/
structure Db.Connected (d : Db) : Prop where
  solidIds : d.solidIds.Pairwise (· < ·)
  beamIds : d.beamIds.Pairwise (· < ·)
  shellIds : d.shellIds.Pairwise (· < ·)
  thickIds : d.thickIds.Pairwise (· < ·)
  solids : ∀ e ∈ d.solids ++ d.thicks, ∀ i, i < 8 → 1 ≤ e.getD i 0 ∧ e.getD i 0 ≤ d.nodes.length
  beams : ∀ e ∈ d.beams, ∀ i, i < 2 → 1 ≤ e.getD i 0 ∧ e.getD i 0 ≤ d.nodes.length
  shells : ∀ e ∈ d.shells, ∀ i, i < 4 → 1 ≤ e.getD i 0 ∧ e.getD i 0 ≤ d.nodes.length

theorem zeroBased_eq_iff {ws w x : Nat} (hw : 1 ≤ w) (h : w < 256 ^ ws) : zeroBased ws x = w - 1 ↔ x = w := by
  unfold zeroBased
  split <;> omega

theorem members_specCon {ws w k : Nat} {ns : List Nat} (hw : 1 ≤ w) (h : w < 256 ^ ws) {els : List (List Nat)} {ids : List Nat} :
    members (w - 1) (els.map (specCon ws ns k)) ids = writtenWith w k els ids := by
  unfold members writtenWith
  rw [List.length_map]
  congr 1
  apply List.filter_congr
  intro i hi
  have hi' : i < els.length := List.mem_range.mp hi
  rw [List.getElem?_map, List.getElem?_eq_getElem hi', List.getD_eq_getElem?_getD (l := els), List.getElem?_eq_getElem hi']
  have := zeroBased_eq_iff (x := els[i].getD k 0) hw h
  show ((some (zeroBased ws (els[i].getD k 0))) == some (w - 1)) = (els[i].getD k 0 == w)
  rw [Bool.eq_iff_iff, beq_iff_eq, beq_iff_eq, Option.some.injEq]
  exact this

theorem isNode_specCon {ws w k n : Nat} {ns : List Nat} (hw : 1 ≤ w) (h : w < 256 ^ ws) {els : List (List Nat)} {nids : List Nat}
    (hn : ns.take n = List.range n)
    (h1 : ∀ e ∈ els, ∀ i, i < n → 1 ≤ e.getD i 0) (y : Nat) :
    IsNode n (fun n => nids[n]?) (w - 1) (els.map (specCon ws ns k)) y ↔ WrittenNode nids n w k els y := by
  have hz : ∀ x, 1 ≤ x → zeroBased ws x = x - 1 := fun x hx => by unfold zeroBased; rw [if_neg (by omega)]
  unfold IsNode WrittenNode
  constructor
  · rintro ⟨c, hc, hm, m, hmem, hy⟩
    obtain ⟨e, he, rfl⟩ := List.mem_map.mp hc
    refine ⟨e, he, (zeroBased_eq_iff hw h).mp hm, ?_⟩
    unfold specCon at hmem
    rw [← List.map_take, hn] at hmem
    obtain ⟨i, hi, rfl⟩ := List.mem_map.mp hmem
    have hi := List.mem_range.mp hi
    refine ⟨i, hi, ?_⟩
    rw [← hz _ (h1 e he i hi)]
    exact hy
  · rintro ⟨e, he, hm, i, hi, hy⟩
    refine ⟨_, List.mem_map_of_mem he, (zeroBased_eq_iff hw h).mpr hm, zeroBased ws (e.getD i 0), ?_, ?_⟩
    · unfold specCon
      rw [← List.map_take, hn]
      exact List.mem_map_of_mem (List.mem_range.mpr hi)
    · show nids[zeroBased ws (e.getD i 0)]? = _
      rw [hz _ (h1 e he i hi)]
      exact hy

/-- Auxiliary: the numbers of elements are numbers of the machine. -/
theorem db_counts {d : Db} (ok : d.Ok) : d.solidIds.length < u64 ∧ d.beamIds.length < u64 ∧ d.shellIds.length < u64 ∧
    d.thickIds.length < u64 ∧ d.partIds.length < u64 := by
  have h := ok.size
  rw [write_flatten, pack_length] at h
  have hl : d.header.length ≤ d.all.length := by
    unfold Db.all
    rw [List.length_append]
    omega
  have h4 : d.all.length * 4 ≤ d.all.length * d.ws := Nat.mul_le_mul_left _ (by rcases ok.ws with h | h <;> omega)
  have hd : d.solidIds.length + d.beamIds.length + d.shellIds.length + d.thickIds.length + d.partIds.length ≤ d.header.length := by
    unfold Db.header
    simp only [List.length_append]
    omega
  unfold u64
  refine ⟨?_, ?_, ?_, ?_, ?_⟩ <;> omega

/-- C105: the part with the material `w` consists of the elements that are written with this material, in the order in which they are
written, each with its id, and its nodes are exactly the nodes that these elements name: their ids ascend. There is no part for a material
that no element has. If the part ids ascend, the part with the id that is written at the position of the material is this part. -/
theorem c105_parts {d : Db} (ok : d.Ok) (con : d.Connected) : ∃ plot, openPlot d.write = .ok plot ∧
    ∀ w, 1 ≤ w → w < 256 ^ d.ws →
      ((∀ e ∈ d.solids ++ d.thicks, e.getD 8 0 ≠ w) → (∀ e ∈ d.beams, e.getD 5 0 ≠ w) → (∀ e ∈ d.shells, e.getD 4 0 ≠ w) →
        readPart plot (w - 1) = .ok (plot, none)) ∧
      ((∃ e ∈ d.solids ++ d.thicks, e.getD 8 0 = w) ∨ (∃ e ∈ d.beams, e.getD 5 0 = w) ∨ (∃ e ∈ d.shells, e.getD 4 0 = w) →
        ∃ part l, readPart plot (w - 1) = .ok (plot, some part) ∧
          part = ⟨writtenWith w 8 d.solids d.solidIds, writtenWith w 8 d.thicks d.thickIds, writtenWith w 5 d.beams d.beamIds,
            writtenWith w 4 d.shells d.shellIds⟩ ∧
          partNodeIds none {} plot part = .ok (plot, some l) ∧ l.Pairwise (· < ·) ∧
          ∀ y, y ∈ l ↔ WrittenNode d.nodeIds 8 w 8 (d.solids ++ d.thicks) y ∨ WrittenNode d.nodeIds 2 w 5 d.beams y ∨
            WrittenNode d.nodeIds 4 w 4 d.shells y) ∧
      (d.partIds.Pairwise (· < ·) → ∀ id, d.partIds[w - 1]? = some id → readPartById plot id = readPart plot (w - 1)) := by
  obtain ⟨plot, ho, -, -, -, r8, rt, r2, r4, rn, i8, i2, i4, it, ip, -⟩ := c105_round_trip ok
  obtain ⟨c8, c2, c4, ct, cp⟩ := db_counts ok
  refine ⟨plot, ho, ?_⟩
  intro w hw hwb
  have hnode : ∀ {els : List (List Nat)} {ns : List Nat} {k n : Nat}, ns = List.range ns.length → n ≤ ns.length →
      (∀ e ∈ els, ∀ i, i < n → 1 ≤ e.getD i 0 ∧ e.getD i 0 ≤ d.nodes.length) →
      ∀ e ∈ els.map (specCon d.ws ns k), ∀ m ∈ e.nodes.take n, ∀ l, some d.nodeIds = some l → m < l.length := by
    intro els ns k n hns hn h e he m hm l hl
    cases hl
    obtain ⟨x, hx, rfl⟩ := List.mem_map.mp he
    unfold specCon at hm
    rw [← List.map_take, hns, List.take_range, Nat.min_eq_left hn] at hm
    obtain ⟨i, hi, rfl⟩ := List.mem_map.mp hm
    obtain ⟨h1, h2⟩ := h x hx i (List.mem_range.mp hi)
    unfold zeroBased
    rw [if_neg (by omega), ok.nodeIds]
    omega
  have len : ∀ {els : List (List Nat)} {ns : List Nat} {k : Nat}, ∀ e ∈ els.map (specCon d.ws ns k), e.nodes.length = ns.length := by
    intro els ns k e he
    obtain ⟨x, -, rfl⟩ := List.mem_map.mp he
    simp [specCon]
  have T : Tables plot (some d.nodeIds) {} d.solidIds d.beamIds d.shellIds d.thickIds
      (d.solids.map (specCon d.ws [0, 1, 2, 3, 4, 5, 6, 7] 8)) (d.beams.map (specCon d.ws [0, 1, 2] 5))
      (d.shells.map (specCon d.ws [0, 1, 2, 3] 4)) (d.thicks.map (specCon d.ws [0, 1, 2, 3, 4, 5, 6, 7] 8)) := by
    refine { h8 := i8, h8' := r8, h2 := i2, h2' := r2, h4 := i4, h4' := r4, ht := it, ht' := rt,
             s8 := con.solidIds, s2 := con.beamIds, s4 := con.shellIds, st := con.thickIds,
             l8 := by rw [List.length_map, ok.solidIds], l2 := by rw [List.length_map, ok.beamIds],
             l4 := by rw [List.length_map, ok.shellIds], lt := by rw [List.length_map, ok.thickIds],
             b8 := c8, b2 := c2, b4 := c4, bt := ct,
             nodes := ?_, beamNodes := ?_, g8 := by simp, g2 := by simp, g4 := by simp, gt := by simp,
             g8' := by simp, g2' := by simp, g4' := by simp, gt' := by simp }
    · intro e he m hm
      rcases List.mem_append.mp he with he | he
      · rcases List.mem_append.mp he with he | he
        · exact hnode (n := 8) rfl (Nat.le_refl _) (fun e he => con.solids e (by simp [he])) e he m
            (by rw [List.take_of_length_le (by rw [len e he]; exact Nat.le_refl _)]; exact hm)
        · exact hnode (n := 4) rfl (Nat.le_refl _) con.shells e he m
            (by rw [List.take_of_length_le (by rw [len e he]; exact Nat.le_refl _)]; exact hm)
      · exact hnode (n := 8) rfl (Nat.le_refl _) (fun e he => con.solids e (by simp [he])) e he m
          (by rw [List.take_of_length_le (by rw [len e he]; exact Nat.le_refl _)]; exact hm)
    · exact hnode (n := 2) rfl (by decide) con.beams
  have hpart := c36_part (part := w - 1) i8 r8 it rt i2 r2 i4 r4 T.l8 T.lt T.l2 T.l4
  rw [members_specCon hw hwb, members_specCon hw hwb, members_specCon hw hwb, members_specCon hw hwb] at hpart
  have hmat : (∀ e ∈ d.solids.map (specCon d.ws [0, 1, 2, 3, 4, 5, 6, 7] 8) ++
      d.thicks.map (specCon d.ws [0, 1, 2, 3, 4, 5, 6, 7] 8) ++ d.beams.map (specCon d.ws [0, 1, 2] 5) ++
      d.shells.map (specCon d.ws [0, 1, 2, 3] 4), e.material ≠ w - 1) ↔
      ((∀ e ∈ d.solids ++ d.thicks, e.getD 8 0 ≠ w) ∧ (∀ e ∈ d.beams, e.getD 5 0 ≠ w) ∧ (∀ e ∈ d.shells, e.getD 4 0 ≠ w)) := by
    have one : ∀ {els : List (List Nat)} {ns : List Nat} {k : Nat},
        ((∀ e ∈ els.map (specCon d.ws ns k), e.material ≠ w - 1) ↔ ∀ e ∈ els, e.getD k 0 ≠ w) := by
      intro els ns k
      constructor
      · intro g e he hc
        exact g _ (List.mem_map_of_mem he) ((zeroBased_eq_iff hw hwb).mpr hc)
      · intro g c hc hm
        obtain ⟨e, he, rfl⟩ := List.mem_map.mp hc
        exact g e he ((zeroBased_eq_iff hw hwb).mp hm)
    rw [← List.map_append]
    simp only [List.forall_mem_append]
    rw [one (els := d.beams), one (els := d.shells), one (els := d.solids ++ d.thicks)]
    simp only [List.forall_mem_append, and_assoc]
  refine ⟨?_, ?_, ?_⟩
  · intro h1 h2 h3
    rw [hpart, if_pos (hmat.mpr ⟨h1, h2, h3⟩)]
  · intro h
    have hne : ¬ _ := fun hc => by
      obtain ⟨h1, h2, h3⟩ := hmat.mp hc
      rcases h with ⟨e, he, hx⟩ | ⟨e, he, hx⟩ | ⟨e, he, hx⟩
      · exact h1 e he hx
      · exact h2 e he hx
      · exact h3 e he hx
    rw [if_neg hne] at hpart
    obtain ⟨l, l1, l2, l3⟩ := c59_part_node_ids T rn false hpart
    refine ⟨_, l, hpart, rfl, l1, l2, ?_⟩
    intro y
    rw [l3 y, ← List.map_append, isNode_specCon hw hwb rfl (fun e he i hi => (con.solids e he i hi).1),
      isNode_specCon hw hwb rfl (fun e he i hi => (con.beams e he i hi).1),
      isNode_specCon hw hwb rfl (fun e he i hi => (con.shells e he i hi).1)]
  · intro hp id hid
    refine (c36_part_by_id ip ?_ hp cp id).1 (w - 1) hid
    intro hc
    rw [hc] at hid
    cases hid

/-- The sample meets the hypotheses: three of its materials have elements of one kind, and it shows the part of the second material. -/
theorem c105_parts_sample : sampleDb.Ok ∧ sampleDb.Connected ∧ sampleDb.partIds.Pairwise (· < ·) ∧
    writtenWith 1 8 sampleDb.solids sampleDb.solidIds = [(0, 101), (1, 102)] ∧
    writtenWith 2 5 sampleDb.beams sampleDb.beamIds = [(0, 103)] ∧
    (∀ y, WrittenNode sampleDb.nodeIds 2 2 5 sampleDb.beams y ↔ y = 11 ∨ y = 12) := by
  refine ⟨c105_sample.1, ⟨?_, ?_, ?_, ?_, ?_, ?_, ?_⟩, ?_, ?_, ?_, ?_⟩
  · decide +kernel
  · decide +kernel
  · decide +kernel
  · decide +kernel
  · decide +kernel
  · decide +kernel
  · decide +kernel
  · decide +kernel
  · decide +kernel
  · decide +kernel
  · intro y
    unfold WrittenNode
    constructor
    · rintro ⟨e, he, -, i, hi, hy⟩
      rw [List.mem_singleton.mp he] at hy
      have hi : i = 0 ∨ i = 1 := by omega
      rcases hi with rfl | rfl
      · left
        exact (Option.some.inj hy).symm
      · right
        exact (Option.some.inj hy).symm
    · rintro (rfl | rfl)
      · exact ⟨_, List.mem_singleton.mpr rfl, rfl, 0, by decide, rfl⟩
      · exact ⟨_, List.mem_singleton.mpr rfl, rfl, 1, by decide, rfl⟩

end Dyna.D3
