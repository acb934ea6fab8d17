import Verif.D3PartNodes
import Verif.Props.D3Elements
/-!
# Property C59: nodes of a part, and C60: elements of a part
-/

namespace Dyna.D3

open Dyna

/-! ## Sorted insertion -/

theorem pushNode_spec (cap : Nat) (acc : List Nat) (x : Nat) (hs : acc.Pairwise (· < ·))
    (hcap : acc.length < cap) :
    ∃ l, pushNode cap acc x = .ok l ∧ l.Pairwise (· < ·) ∧ l.length ≤ acc.length + 1 ∧
      ∀ y, y ∈ l ↔ y ∈ acc ∨ y = x := by
  unfold pushNode
  by_cases h0 : acc.length = 0
  · have : acc = [] := List.length_eq_zero_iff.1 h0
    subst this
    have : ¬ cap = 0 := by simp at hcap; omega
    refine ⟨[x], by simp [this], by simp, by simp, by simp⟩
  · rw [if_neg h0]
    have hpos : 0 < acc.length := by omega
    let c : Nat → Int := fun i => match acc[i]? with
      | some v => d3WordCmp x v
      | none => 0
    have hci : ∀ i (h : i < acc.length), c i = d3WordCmp x acc[i] := fun i h => by
      simp [c, List.getElem?_eq_getElem h]
    have hcmp : ∀ i, 0 ≤ i → i ≤ acc.length - 1 →
        (fun i => (acc[i]?).map (d3WordCmp x)) i = some (c i) := by
      intro i _ hi
      have hi' : i < acc.length := by omega
      simp [c, List.getElem?_eq_getElem hi']
    have hlt : ∀ i j (hi : i < acc.length) (hj : j < acc.length), i < j → acc[i] < acc[j] :=
      fun i j hi hj hij => List.pairwise_iff_getElem.1 hs i j hi hj hij
    have hd : Descending c 0 (acc.length - 1) := by
      intro i j _ hij hj
      have hj' : j < acc.length := by omega
      have hi' : i < acc.length := by omega
      rw [hci i hi', hci j hj']
      have hle : acc[i] ≤ acc[j] := by
        by_cases he : i = j
        · subst he; exact Nat.le_refl _
        · exact Nat.le_of_lt (hlt i j hi' hj' (by omega))
      unfold d3WordCmp
      constructor
      · intro h
        split at h
        · split <;> omega
        · split at h
          · omega
          · split
            · omega
            · split <;> omega
      · intro h
        split at h
        · split <;> omega
        · split at h <;> omega
    rcases bsearchInsert_spec _ c 0 (acc.length - 1) (by omega) hcmp hd with
      ⟨i, h1, _, h3, h4⟩ | ⟨i, h1, _, h3, h4, h5⟩
    · rw [h1]
      have hi : i < acc.length := by omega
      have hx : x = acc[i] := by
        rw [hci i hi] at h4
        unfold d3WordCmp at h4
        split at h4
        · omega
        · split at h4 <;> omega
      refine ⟨acc, rfl, hs, by omega, fun y => ⟨Or.inl, fun h => ?_⟩⟩
      rcases h with h | rfl
      · exact h
      · rw [hx]; exact List.getElem_mem hi
    · rw [h1]
      have hcl : ¬ cap ≤ acc.length := by omega
      simp only [hcl, if_false]
      have hbefore : ∀ y ∈ acc.take i, y < x := by
        intro y hy
        obtain ⟨j, hj, rfl⟩ := List.mem_iff_getElem.1 hy
        simp only [List.length_take] at hj
        have hja : j < acc.length := by omega
        have := h4 j (by omega) (by omega)
        rw [hci j hja] at this
        rw [List.getElem_take]
        unfold d3WordCmp at this
        split at this
        · omega
        · split at this <;> omega
      have hafter : ∀ y ∈ acc.drop i, x < y := by
        intro y hy
        obtain ⟨j, hj, rfl⟩ := List.mem_iff_getElem.1 hy
        simp only [List.length_drop] at hj
        have hja : i + j < acc.length := by omega
        have := h5 (i + j) (by omega) (by omega)
        rw [hci (i + j) hja] at this
        rw [List.getElem_drop]
        unfold d3WordCmp at this
        split at this
        · omega
        · split at this <;> omega
      refine ⟨_, rfl, ?_, ?_, ?_⟩
      · rw [List.pairwise_append]
        refine ⟨hs.sublist (List.take_sublist _ _), ?_, ?_⟩
        · rw [List.pairwise_cons]
          exact ⟨hafter, hs.sublist (List.drop_sublist _ _)⟩
        · intro a ha b hb
          rcases List.mem_cons.1 hb with rfl | hb
          · exact hbefore a ha
          · exact Nat.lt_trans (hbefore a ha) (hafter b hb)
      · simp only [List.length_append, List.length_take, List.length_cons, List.length_drop]
        omega
      · intro y
        have hmem : y ∈ acc ↔ y ∈ acc.take i ∨ y ∈ acc.drop i := by
          rw [← List.mem_append, List.take_append_drop]
        simp only [List.mem_append, List.mem_cons, hmem]
        constructor
        · rintro (h | rfl | h)
          · exact .inl (.inl h)
          · exact .inr rfl
          · exact .inl (.inr h)
        · rintro ((h | h) | rfl)
          · exact .inl h
          · exact .inr (.inr h)
          · exact .inr (.inl rfl)

theorem pushNodes_spec (cap : Nat) (nodeIds : Option (List Nat)) (ns : List Nat) :
    ∀ (acc : List Nat), acc.Pairwise (· < ·) → acc.length + ns.length ≤ cap →
    (∀ n ∈ ns, ∃ v, nodeValue nodeIds n = .ok v) →
    ∃ l, pushNodes cap nodeIds ns acc = .ok l ∧ l.Pairwise (· < ·) ∧
      l.length ≤ acc.length + ns.length ∧
      ∀ y, y ∈ l ↔ y ∈ acc ∨ ∃ n ∈ ns, nodeValue nodeIds n = .ok y := by
  induction ns with
  | nil => intro acc hs _ _; exact ⟨acc, rfl, hs, by simp, by simp⟩
  | cons n ns ih =>
    intro acc hs hcap hv
    obtain ⟨v, hv1⟩ := hv n (by simp)
    simp only [List.length_cons] at hcap
    obtain ⟨l1, h1, h2, h3, h4⟩ := pushNode_spec cap acc v hs (by omega)
    obtain ⟨l2, g1, g2, g3, g4⟩ := ih l1 h2 (by omega) (fun m hm => hv m (by simp [hm]))
    refine ⟨l2, ?_, g2, by simp only [List.length_cons]; omega, fun y => ?_⟩
    · simp only [pushNodes, hv1, Res.bind_ok, h1, g1]
    · rw [g4, h4]
      constructor
      · rintro ((h | rfl) | ⟨m, hm, hm2⟩)
        · exact .inl h
        · exact .inr ⟨n, by simp, hv1⟩
        · exact .inr ⟨m, by simp [hm], hm2⟩
      · rintro (h | ⟨m, hm, hm2⟩)
        · exact .inl (.inl h)
        · rcases List.mem_cons.1 hm with rfl | hm
          · rw [hv1] at hm2; cases hm2; exact .inl (.inr rfl)
          · exact .inr ⟨m, hm, hm2⟩

theorem pushElements_other (cap k : Nat) (nodeIds : Option (List Nat)) (ids : List Nat)
    (els : List Con) (hids : ids.Pairwise (· < ·)) (hlen : ids.length < u64)
    (hval : ∀ e ∈ els, ∀ n ∈ e.nodes.take k, ∃ v, nodeValue nodeIds n = .ok v)
    (partIds : List Nat) :
    ∀ (acc : List Nat), acc.Pairwise (· < ·) → acc.length + k * partIds.length ≤ cap →
    (∀ id ∈ partIds, id ∈ ids) → (∀ id ∈ partIds, ∀ (i : Nat), ids[i]? = some id → i < els.length) →
    ∃ l, pushElements cap k nodeIds ids ids.length els partIds acc = .ok l ∧
      l.Pairwise (· < ·) ∧ l.length ≤ acc.length + k * partIds.length ∧
      ∀ y, y ∈ l ↔ y ∈ acc ∨ ∃ (i : Nat) (e : Con) (n : Nat), (∃ id ∈ partIds, ids[i]? = some id) ∧ els[i]? = some e ∧
        n ∈ e.nodes.take k ∧ nodeValue nodeIds n = .ok y := by
  induction partIds with
  | nil => intro acc hs _ _ _; exact ⟨acc, rfl, hs, by simp, by simp⟩
  | cons id rest ih =>
    intro acc hs hcap hin hel
    have hmem := hin id (by simp)
    have hne : ids ≠ [] := fun e => by rw [e] at hmem; cases hmem
    obtain ⟨i, hi1, hi2⟩ := (c01_index_for_id_exact ids (hids.imp Nat.le_of_lt) hne hlen id).1 hmem
    obtain ⟨hil, hie⟩ := List.getElem?_eq_some_iff.1 hi2
    have hiel : i < els.length := hel id (by simp) i hi2
    have hke : k * (id :: rest).length = k * rest.length + k := by
      simp only [List.length_cons]; exact Nat.mul_succ _ _
    rw [hke] at hcap
    have htk : (els[i].nodes.take k).length ≤ k := by simp; omega
    obtain ⟨l1, h1, h2, h3, h4⟩ := pushNodes_spec cap nodeIds (els[i].nodes.take k) acc hs (by omega)
      (hval _ (List.getElem_mem hiel))
    obtain ⟨l2, g1, g2, g3, g4⟩ := ih l1 h2 (by omega) (fun m hm => hin m (by simp [hm]))
      (fun m hm => hel m (by simp [hm]))
    refine ⟨l2, ?_, g2, by rw [hke]; omega, fun y => ?_⟩
    · have hb : bsearch (fun i => (ids[i]?).map (d3WordCmp id)) 0 (sub64 ids.length 1) =
        .ok (some i) := hi1
      simp only [pushElements, hb, Res.bind_ok, List.getElem?_eq_getElem hiel, Res.ofOption_some,
        h1, g1]
    · rw [g4, h4]
      constructor
      · rintro ((h | ⟨n, hn, hn2⟩) | ⟨j, e, n, ⟨id', hid', hj⟩, he, hn, hn2⟩)
        · exact .inl h
        · exact .inr ⟨i, els[i], n, ⟨id, by simp, hi2⟩, List.getElem?_eq_getElem hiel, hn, hn2⟩
        · exact .inr ⟨j, e, n, ⟨id', by simp [hid'], hj⟩, he, hn, hn2⟩
      · rintro (h | ⟨j, e, n, ⟨id', hid', hj⟩, he, hn, hn2⟩)
        · exact .inl (.inl h)
        · rcases List.mem_cons.1 hid' with rfl | hid'
          · have hij : i = j := by
              obtain ⟨hjl, hje⟩ := List.getElem?_eq_some_iff.1 hj
              rcases Nat.lt_trichotomy i j with hlt | he | hlt
              · have := List.pairwise_iff_getElem.1 hids i j hil hjl hlt
                omega
              · exact he
              · have := List.pairwise_iff_getElem.1 hids j i hjl hil hlt
                omega
            subst hij
            rw [List.getElem?_eq_getElem hiel] at he
            cases he
            exact .inl (.inr ⟨n, hn, hn2⟩)
          · exact .inr ⟨j, e, n, ⟨id', hid', hj⟩, he, hn, hn2⟩

theorem pushElements_spec (cap k : Nat) (nodeIds : Option (List Nat)) (ids : List Nat)
    (els : List Con) (hids : ids.Pairwise (· < ·)) (hlen : ids.length < u64)
    (hel : els.length = ids.length)
    (hval : ∀ e ∈ els, ∀ n ∈ e.nodes.take k, ∃ v, nodeValue nodeIds n = .ok v)
    (partIds : List Nat) :
    ∀ (acc : List Nat), acc.Pairwise (· < ·) → acc.length + k * partIds.length ≤ cap →
    (∀ id ∈ partIds, id ∈ ids) →
    ∃ l, pushElements cap k nodeIds ids ids.length els partIds acc = .ok l ∧
      l.Pairwise (· < ·) ∧ l.length ≤ acc.length + k * partIds.length ∧
      ∀ y, y ∈ l ↔ y ∈ acc ∨ ∃ (i : Nat) (e : Con) (n : Nat), (∃ id ∈ partIds, ids[i]? = some id) ∧ els[i]? = some e ∧
        n ∈ e.nodes.take k ∧ nodeValue nodeIds n = .ok y := by
  intro acc hs hcap hin
  exact pushElements_other cap k nodeIds ids els hids hlen hval partIds acc hs hcap hin fun id _ i hi => by
    have := (List.getElem?_eq_some_iff.1 hi).1
    omega

/-! ## The part of a file -/

/-- Specification: `y` is the value (id or index) of one of the first `k` nodes of an element
of the list with this material. -/
def IsNode (k : Nat) (value : Nat → Option Nat) (material : Nat) (els : List Con) (y : Nat) : Prop :=
  ∃ e ∈ els, e.material = material ∧ ∃ n ∈ e.nodes.take k, value n = some y

/-- The node itself or the id at this index. -/
def valueOf : Option (List Nat) → Nat → Option Nat
  | none, n => some n
  | some l, n => l[n]?

theorem nodeValue_iff (nodeIds : Option (List Nat)) (n y : Nat) :
    nodeValue nodeIds n = .ok y ↔ valueOf nodeIds n = some y := by
  cases nodeIds with
  | none => simp [nodeValue, valueOf]
  | some l =>
    simp only [nodeValue, valueOf]
    cases h : l[n]? <;> simp [Res.ofOption]

theorem members_ids {part : Nat} {els : List Con} {ids : List Nat} (hel : els.length = ids.length)
    (id : Nat) : id ∈ (members part els ids).map (·.2) ↔
      ∃ (i : Nat) (e : Con), els[i]? = some e ∧ e.material = part ∧ ids[i]? = some id := by
  simp only [members, List.map_map, List.mem_map, List.mem_filter, List.mem_range, beq_iff_eq]
  constructor
  · rintro ⟨i, ⟨hi, hm⟩, hid⟩
    have hi' : i < ids.length := by omega
    refine ⟨i, els[i], List.getElem?_eq_getElem hi, ?_, ?_⟩
    · simpa [List.getElem?_eq_getElem hi] using hm
    · simp [List.getElem?_eq_getElem hi'] at hid ⊢
      exact hid
  · rintro ⟨i, e, he, hm, hid⟩
    obtain ⟨hi, rfl⟩ := List.getElem?_eq_some_iff.1 he
    obtain ⟨hi', rfl⟩ := List.getElem?_eq_some_iff.1 hid
    exact ⟨i, ⟨hi, by simpa [List.getElem?_eq_getElem hi] using hm⟩,
      by simp [List.getElem?_eq_getElem hi']⟩

/-- One kind of elements. -/
theorem addPartNodes_spec {p : Plot} {readI : Plot → Call (List Nat)}
    {readE : Plot → Call (List Con)} {ids : List Nat} {els : List Con} {part cap k : Nat}
    {nodeIds : Option (List Nat)} {idsArg : Option (List Nat)} {elsArg : Option (List Con)}
    (hi : readI p = .ok (p, some ids)) (he : readE p = .ok (p, some els))
    (hia : ∀ l, idsArg = some l → l = ids) (hea : ∀ l, elsArg = some l → l = els)
    (hids : ids.Pairwise (· < ·)) (hlen : ids.length < u64) (hel : els.length = ids.length)
    (hval : ∀ e ∈ els, ∀ n ∈ e.nodes.take k, ∃ v, nodeValue nodeIds n = .ok v)
    (acc : List Nat) (hs : acc.Pairwise (· < ·))
    (hcap : acc.length + k * (members part els ids).length ≤ cap) :
    ∃ l, addPartNodes cap k nodeIds ((members part els ids).map (·.2)) idsArg elsArg readI readE p
      acc = .ok (p, l) ∧ l.Pairwise (· < ·) ∧
      l.length ≤ acc.length + k * (members part els ids).length ∧
      ∀ y, y ∈ l ↔ y ∈ acc ∨
        IsNode k (valueOf nodeIds) part els y := by
  have hsem : ∀ y, (∃ (i : Nat) (e : Con) (n : Nat), (∃ id ∈ (members part els ids).map (·.2), ids[i]? = some id) ∧
      els[i]? = some e ∧ n ∈ e.nodes.take k ∧ nodeValue nodeIds n = .ok y) ↔
      IsNode k (valueOf nodeIds) part els y := by
    intro y
    constructor
    · rintro ⟨i, e, n, ⟨id, hid, hi⟩, he, hn, hy⟩
      obtain ⟨j, e', hj1, hj2, hj3⟩ := (members_ids hel id).1 hid
      have hij : i = j := by
        obtain ⟨h1, h2⟩ := List.getElem?_eq_some_iff.1 hi
        obtain ⟨h3, h4⟩ := List.getElem?_eq_some_iff.1 hj3
        rcases Nat.lt_trichotomy i j with hlt | he | hlt
        · have := List.pairwise_iff_getElem.1 hids i j h1 h3 hlt
          omega
        · exact he
        · have := List.pairwise_iff_getElem.1 hids j i h3 h1 hlt
          omega
      subst hij
      rw [he] at hj1
      cases hj1
      exact ⟨e, List.mem_of_getElem? he, hj2, n, hn, (nodeValue_iff nodeIds n y).1 hy⟩
    · rintro ⟨e, he, hm, n, hn, hy⟩
      obtain ⟨i, hi, rfl⟩ := List.mem_iff_getElem.1 he
      have hi' : i < ids.length := by omega
      exact ⟨i, els[i], n, ⟨ids[i], (members_ids hel _).2 ⟨i, els[i], List.getElem?_eq_getElem hi, hm,
        List.getElem?_eq_getElem hi'⟩, List.getElem?_eq_getElem hi'⟩, List.getElem?_eq_getElem hi, hn,
        (nodeValue_iff nodeIds n y).2 hy⟩
  unfold addPartNodes
  by_cases h0 : (members part els ids).map (·.2) = []
  · rw [if_pos h0]
    refine ⟨acc, rfl, hs, by omega, fun y => ⟨Or.inl, fun h => ?_⟩⟩
    rcases h with h | h
    · exact h
    · obtain ⟨i, e, n, ⟨id, hid, _⟩, _⟩ := (hsem y).2 h
      rw [h0] at hid
      cases hid
  · rw [if_neg h0]
    have hine : ids ≠ [] := by
      rintro rfl
      have : els = [] := by simpa using hel
      subst this
      exact h0 rfl
    have hene : els ≠ [] := by
      rintro rfl
      exact h0 rfl
    have hin : ∀ id ∈ (members part els ids).map (·.2), id ∈ ids := by
      intro id hid
      obtain ⟨j, e', _, _, hj3⟩ := (members_ids hel id).1 hid
      exact List.mem_of_getElem? hj3
    obtain ⟨l, h1, h2, h3, h4⟩ := pushElements_spec cap k nodeIds ids els hids hlen hel hval
      ((members part els ids).map (·.2)) acc hs (by simpa using hcap) hin
    have hmain : (pushElements cap k nodeIds ids ids.length els
        ((members part els ids).map (·.2)) acc >>= fun acc => (.ok (p, acc) : Res _)) = .ok (p, l) := by
      rw [h1]; rfl
    have hfin : ∀ y, y ∈ l ↔ y ∈ acc ∨
        IsNode k (valueOf nodeIds) part els y :=
      fun y => by rw [h4, hsem]
    refine ⟨l, ?_, h2, by simpa using h3, hfin⟩
    cases idsArg with
    | some li =>
      have := hia li rfl
      subst this
      cases elsArg with
      | some le =>
        have := hea le rfl
        subst this
        simpa using hmain
      | none => simpa [he, hene, hel] using hmain
    | none =>
      cases elsArg with
      | some le =>
        have := hea le rfl
        subst this
        simpa [hi, hine] using hmain
      | none => simpa [hi, he, hine, hene, hel] using hmain

/-- The tables of a file: what the functions for ids and connectivity return, ids ascending, one
connectivity for every id, and every node of an element has a value (for beams: the two nodes, not the one
for the orientation). The optional tables of the caller are the ones of the file. -/
structure Tables (p : Plot) (nodeIds : Option (List Nat)) (g : Given)
    (i8 i2 i4 it : List Nat) (e8 e2 e4 et : List Con) : Prop where
  h8 : readSolidIds p = .ok (p, some i8)
  h8' : readSolidElements p = .ok (p, some e8)
  h2 : readBeamIds p = .ok (p, some i2)
  h2' : readBeamElements p = .ok (p, some e2)
  h4 : readShellIds p = .ok (p, some i4)
  h4' : readShellElements p = .ok (p, some e4)
  ht : readThickIds p = .ok (p, some it)
  ht' : readThickElements p = .ok (p, some et)
  s8 : i8.Pairwise (· < ·)
  s2 : i2.Pairwise (· < ·)
  s4 : i4.Pairwise (· < ·)
  st : it.Pairwise (· < ·)
  l8 : e8.length = i8.length
  l2 : e2.length = i2.length
  l4 : e4.length = i4.length
  lt : et.length = it.length
  b8 : i8.length < u64
  b2 : i2.length < u64
  b4 : i4.length < u64
  bt : it.length < u64
  nodes : ∀ e ∈ e8 ++ e4 ++ et, ∀ n ∈ e.nodes, ∀ l, nodeIds = some l → n < l.length
  beamNodes : ∀ e ∈ e2, ∀ n ∈ e.nodes.take 2, ∀ l, nodeIds = some l → n < l.length
  g8 : ∀ l, g.solidIds = some l → l = i8
  g2 : ∀ l, g.beamIds = some l → l = i2
  g4 : ∀ l, g.shellIds = some l → l = i4
  gt : ∀ l, g.thickIds = some l → l = it
  g8' : ∀ l, g.solids = some l → l = e8
  g2' : ∀ l, g.beams = some l → l = e2
  g4' : ∀ l, g.shells = some l → l = e4
  gt' : ∀ l, g.thick = some l → l = et

theorem partNodes_spec {p : Plot} {nodeIds : Option (List Nat)} {g : Given} {i8 i2 i4 it : List Nat}
    {e8 e2 e4 et : List Con} (T : Tables p nodeIds g i8 i2 i4 it e8 e2 e4 et) (m : Nat) :
    ∃ l, partNodes nodeIds g p
        ⟨members m e8 i8, members m et it, members m e2 i2, members m e4 i4⟩ = .ok (p, l) ∧
      l.Pairwise (· < ·) ∧
      ∀ y, y ∈ l ↔
        IsNode 8 (valueOf nodeIds) m (e8 ++ et) y ∨
        IsNode 2 (valueOf nodeIds) m e2 y ∨
        IsNode 4 (valueOf nodeIds) m e4 y := by
  have hv : ∀ es : List Con, (∀ e ∈ es, e ∈ e8 ++ e4 ++ et) → ∀ k, ∀ e ∈ es,
      ∀ n ∈ e.nodes.take k, ∃ v, nodeValue nodeIds n = .ok v := by
    intro es hes k e he n hn
    have hn' : n ∈ e.nodes := (List.take_sublist _ _).subset hn
    cases hni : nodeIds with
    | none => exact ⟨n, rfl⟩
    | some l =>
      have := T.nodes e (hes e he) n hn' l hni
      exact ⟨l[n], by simp [nodeValue, List.getElem?_eq_getElem this]⟩
  have hv2 : ∀ e ∈ e2, ∀ n ∈ e.nodes.take 2, ∃ v, nodeValue nodeIds n = .ok v := by
    intro e he n hn
    cases hni : nodeIds with
    | none => exact ⟨n, rfl⟩
    | some l =>
      have := T.beamNodes e he n hn l hni
      exact ⟨l[n], by simp [nodeValue, List.getElem?_eq_getElem this]⟩
  unfold partNodes partNodeCap
  simp only
  obtain ⟨a1, h1, s1, c1, m1⟩ := addPartNodes_spec (part := m) (nodeIds := nodeIds)
    (cap := (members m e8 i8).length * 8 + (members m e2 i2).length * 2 + (members m e4 i4).length * 4 +
      (members m et it).length * 8) (k := 8) T.h8 T.h8' T.g8 T.g8' T.s8 T.b8 T.l8
    (hv e8 (fun e h => by simp [h]) 8) [] (by simp) (by simp; omega)
  obtain ⟨a2, h2, s2, c2, m2⟩ := addPartNodes_spec (part := m) (nodeIds := nodeIds)
    (cap := (members m e8 i8).length * 8 + (members m e2 i2).length * 2 + (members m e4 i4).length * 4 +
      (members m et it).length * 8) (k := 2) T.h2 T.h2' T.g2 T.g2' T.s2 T.b2 T.l2
    hv2 a1 s1 (by simp at c1; omega)
  obtain ⟨a3, h3, s3, c3, m3⟩ := addPartNodes_spec (part := m) (nodeIds := nodeIds)
    (cap := (members m e8 i8).length * 8 + (members m e2 i2).length * 2 + (members m e4 i4).length * 4 +
      (members m et it).length * 8) (k := 4) T.h4 T.h4' T.g4 T.g4' T.s4 T.b4 T.l4
    (hv e4 (fun e h => by simp [h]) 4) a2 s2 (by simp at c1; omega)
  obtain ⟨a4, h4, s4, c4, m4⟩ := addPartNodes_spec (part := m) (nodeIds := nodeIds)
    (cap := (members m e8 i8).length * 8 + (members m e2 i2).length * 2 + (members m e4 i4).length * 4 +
      (members m et it).length * 8) (k := 8) T.ht T.ht' T.gt T.gt' T.st T.bt T.lt
    (hv et (fun e h => by simp [h]) 8) a3 s3 (by simp at c1; omega)
  refine ⟨a4, ?_, s4, fun y => ?_⟩
  · rw [h1]
    simp only [Res.bind_ok]
    rw [h2]
    simp only [Res.bind_ok]
    rw [h3]
    simp only [Res.bind_ok]
    rw [h4]
  · rw [m4, m3, m2, m1]
    have hsplit : ∀ v, IsNode 8 v m (e8 ++ et) y ↔ IsNode 8 v m e8 y ∨ IsNode 8 v m et y := by
      intro v
      unfold IsNode
      constructor
      · rintro ⟨e, he, h⟩
        rcases List.mem_append.1 he with he | he
        · exact .inl ⟨e, he, h⟩
        · exact .inr ⟨e, he, h⟩
      · rintro (⟨e, he, h⟩ | ⟨e, he, h⟩)
        · exact ⟨e, List.mem_append_left _ he, h⟩
        · exact ⟨e, List.mem_append_right _ he, h⟩
    rw [hsplit]
    constructor
    · rintro ((((h | h) | h) | h) | h)
      · cases h
      · exact .inl (.inl h)
      · exact .inr (.inl h)
      · exact .inr (.inr h)
      · exact .inl (.inr h)
    · rintro ((h | h) | h | h)
      · exact .inl (.inl (.inl (.inr h)))
      · exact .inr h
      · exact .inl (.inl (.inr h))
      · exact .inl (.inr h)

theorem Tables.part {p : Plot} {nodeIds : Option (List Nat)} {g : Given} {i8 i2 i4 it : List Nat}
    {e8 e2 e4 et : List Con} (T : Tables p nodeIds g i8 i2 i4 it e8 e2 e4 et) {m : Nat} {q : Plot}
    {part : Part} (h : readPart p m = .ok (q, some part)) :
    part = ⟨members m e8 i8, members m et it, members m e2 i2, members m e4 i4⟩ := by
  rw [c36_part T.h8 T.h8' T.ht T.ht' T.h2 T.h2' T.h4 T.h4' T.l8 T.lt T.l2 T.l4] at h
  split at h
  · cases h
  · cases h; rfl

/-- C59: for every part of every file whose element ids ascend and whose elements have nodes of
the file, the node ids of the part are the ids of the nodes of the elements with the material of
the part (for beams without the orientation node): ascending, every id once, none missing, no
other. It does not matter which of the tables the caller passes and which are loaded. -/
theorem c59_part_node_ids {p : Plot} {nids : List Nat} {g : Given} {i8 i2 i4 it : List Nat}
    {e8 e2 e4 et : List Con} (T : Tables p (some nids) g i8 i2 i4 it e8 e2 e4 et)
    (hn : readNodeIds p = .ok (p, some nids)) (given : Bool)
    {m : Nat} {q : Plot} {part : Part} (h : readPart p m = .ok (q, some part)) :
    ∃ l, partNodeIds (if given then some nids else none) g p part = .ok (p, some l) ∧
      l.Pairwise (· < ·) ∧
      ∀ y, y ∈ l ↔ IsNode 8 (fun n => nids[n]?) m (e8 ++ et) y ∨
        IsNode 2 (fun n => nids[n]?) m e2 y ∨ IsNode 4 (fun n => nids[n]?) m e4 y := by
  rw [T.part h]
  obtain ⟨l, h1, h2, h3⟩ := partNodes_spec T m
  refine ⟨l, ?_, h2, h3⟩
  cases given with
  | true =>
    simp only [partNodeIds, if_true, h1, Res.bind_ok]
    rfl
  | false =>
    simp only [partNodeIds, Bool.false_eq_true, if_false, hn, Res.bind_ok, h1]
    rfl

/-- C59: the same for the node indices, and their number is the number of nodes of the part. -/
theorem c59_part_node_indices {p : Plot} {g : Given} {i8 i2 i4 it : List Nat}
    {e8 e2 e4 et : List Con} (T : Tables p none g i8 i2 i4 it e8 e2 e4 et)
    {m : Nat} {q : Plot} {part : Part} (h : readPart p m = .ok (q, some part)) :
    ∃ l, partNodeIndices g p part = .ok (p, some l) ∧ partNumNodes g p part = .ok (p, some l.length) ∧
      l.Pairwise (· < ·) ∧
      ∀ y, y ∈ l ↔ IsNode 8 some m (e8 ++ et) y ∨ IsNode 2 some m e2 y ∨ IsNode 4 some m e4 y := by
  rw [T.part h]
  obtain ⟨l, h1, h2, h3⟩ := partNodes_spec T m
  exact ⟨l, by simp only [partNodeIndices, h1, Res.bind_ok]; rfl,
    by simp only [partNumNodes, h1, Res.bind_ok]; rfl, h2, h3⟩

/-- An element id of the part that is not found in the list of ids (for example because the
caller passes the ids of another file, or the ids do not ascend) is undefined behaviour: the
result "not found" is used as an index. -/
theorem c59_missing_id_ub (cap k : Nat) (nodeIds : Option (List Nat)) (ids : List Nat) (els : List Con)
    (id : Nat) (rest acc : List Nat) (h : indexForId id ids = .ok none) :
    pushElements cap k nodeIds ids ids.length els (id :: rest) acc = .ub := by
  have : bsearch (fun i => (ids[i]?).map (d3WordCmp id)) 0 (sub64 ids.length 1) = .ok none := h
  simp only [pushElements, this, Res.bind_ok]

/-! ## C60 -/

/-- C60 for a part with one kind of elements: exactly the ids of its elements, in the order of the
file. (Missing: parts with several kinds, see `c60_moved_is_undefined`, `c60_not_sorted`.) -/
theorem c60_one_kind_partial (stays : Bool) (ids : List (Nat × Nat)) (part : Part)
    (h : part = ⟨ids, [], [], []⟩ ∨ part = ⟨[], ids, [], []⟩ ∨ part = ⟨[], [], ids, []⟩ ∨
      part = ⟨[], [], [], ids⟩) :
    partAllElementIds stays part = .ok (ids.map (·.2)) := by
  by_cases h0 : ids = []
  · subst h0
    rcases h with rfl | rfl | rfl | rfl <;> rfl
  · have : ¬ ids.map (·.2) = [] := by simpa using h0
    rcases h with rfl | rfl | rfl | rfl <;> simp [partAllElementIds, mergeKind, this]

theorem mergeKind_perm {stays : Bool} {acc r : Option (List Nat)} {ids : List Nat}
    (h : mergeKind stays acc ids = .ok r) : (r.getD []).Perm (acc.getD [] ++ ids) := by
  unfold mergeKind at h
  split at h
  · next h0 => cases h; subst h0; simp
  · cases acc with
    | none => cases h; simp
    | some l =>
      simp only at h
      split at h
      · cases hi : insertSorted (some l) ids with
        | ok r' => rw [hi] at h; cases h; simpa using c37_nothing_lost hi
        | err => rw [hi] at h; cases h
        | ub => rw [hi] at h; cases h
        | abort => rw [hi] at h; cases h
      · cases h

/-- C60: whenever the call returns, it returns the ids of all elements of the part, each as often
as in the part. -/
theorem c60_nothing_lost {stays : Bool} {part : Part} {r : List Nat}
    (h : partAllElementIds stays part = .ok r) :
    r.Perm ((part.solids ++ part.thick ++ part.beams ++ part.shells).map (·.2)) ∧
    r.length = partNumElements part := by
  have hp : r.Perm ((part.solids ++ part.thick ++ part.beams ++ part.shells).map (·.2)) := by
    unfold partAllElementIds at h
    cases h1 : mergeKind stays none (part.solids.map (·.2)) with
    | err | ub | abort => rw [h1] at h; cases h
    | ok a1 =>
      rw [h1] at h
      simp only [Res.bind_ok] at h
      cases h2 : mergeKind stays a1 (part.thick.map (·.2)) with
      | err | ub | abort => rw [h2] at h; cases h
      | ok a2 =>
        rw [h2] at h
        simp only [Res.bind_ok] at h
        cases h3 : mergeKind stays a2 (part.beams.map (·.2)) with
        | err | ub | abort => rw [h3] at h; cases h
        | ok a3 =>
          rw [h3] at h
          simp only [Res.bind_ok] at h
          cases h4 : mergeKind stays a3 (part.shells.map (·.2)) with
          | err | ub | abort => rw [h4] at h; cases h
          | ok a4 =>
            rw [h4] at h
            cases h
            have p1 := mergeKind_perm h1
            have p2 := mergeKind_perm h2
            have p3 := mergeKind_perm h3
            have p4 := mergeKind_perm h4
            simp only [List.map_append]
            refine p4.trans (List.Perm.append_right _ (p3.trans (List.Perm.append_right _
              (p2.trans (List.Perm.append_right _ ?_)))))
            simpa using p1
  refine ⟨hp, ?_⟩
  have := hp.length_eq
  simpa [partNumElements, Nat.add_assoc] using this

/-- C60 for a part with elements of two kinds: if `realloc` moves the array, the call uses freed
memory. -/
theorem c60_moved_is_undefined (part : Part)
    (h : 2 ≤ ([part.solids, part.thick, part.beams, part.shells].filter (· ≠ [])).length) :
    partAllElementIds false part = .ub := by
  obtain ⟨a, b, c, d⟩ := part
  cases a <;> cases b <;> cases c <;> cases d <;>
    simp [partAllElementIds, mergeKind] at h ⊢

/-- C60: with interleaving ids the result is not sorted, even if the array stays in place. -/
theorem c60_not_sorted :
    partAllElementIds true ⟨[(0, 1), (1, 3), (2, 5)], [], [], [(0, 2), (1, 4), (2, 6)]⟩ =
      .ok [1, 2, 4, 6, 3, 5] := by decide +kernel

-- non-vacuity of C59 (tests)
example : ∃ p, openPlot sampleFiles = .ok p ∧ readNodeIds p = .ok (p, some [101, 102]) ∧
    Tables p (some [101, 102]) {} [201] [301] [401] [501] [⟨[0, 1, 0, 1, 0, 1, 0, 1], 0⟩] [⟨[0, 1, 0], 2⟩]
      [⟨[0, 1, 1, 0], 0⟩] [⟨[1, 0, 1, 0, 1, 0, 1, 0], 1⟩] ∧
    readPart p 0 = .ok (p, some ⟨[(0, 201)], [], [], [(0, 401)]⟩) ∧
    partNodeIds none {} p ⟨[(0, 201)], [], [], [(0, 401)]⟩ = .ok (p, some [101, 102]) := by
  obtain ⟨p, h1, h2⟩ := Res.is_iff (r := openPlot sampleFiles) (f := fun p =>
    decide (readNodeIds p = .ok (p, some [101, 102])) &&
    (decide (readSolidIds p = .ok (p, some [201])) &&
    (decide (readSolidElements p = .ok (p, some [⟨[0, 1, 0, 1, 0, 1, 0, 1], 0⟩])) &&
    (decide (readBeamIds p = .ok (p, some [301])) &&
    (decide (readBeamElements p = .ok (p, some [⟨[0, 1, 0], 2⟩])) &&
    (decide (readShellIds p = .ok (p, some [401])) &&
    (decide (readShellElements p = .ok (p, some [⟨[0, 1, 1, 0], 0⟩])) &&
    (decide (readThickIds p = .ok (p, some [501])) &&
    (decide (readThickElements p = .ok (p, some [⟨[1, 0, 1, 0, 1, 0, 1, 0], 1⟩])) &&
    (decide (readPart p 0 = .ok (p, some ⟨[(0, 201)], [], [], [(0, 401)]⟩)) &&
    decide (partNodeIds none {} p ⟨[(0, 201)], [], [], [(0, 401)]⟩ = .ok (p, some [101, 102]))))))))))))
    (by decide +kernel)
  simp only [Bool.and_eq_true, decide_eq_true_eq] at h2
  obtain ⟨a, b1, b2, b3, b4, b5, b6, b7, b8, c, d⟩ := h2
  refine ⟨p, h1, a, ?_, c, d⟩
  refine { h8 := b1, h8' := b2, h2 := b3, h2' := b4, h4 := b5, h4' := b6, ht := b7, ht' := b8,
           s8 := by simp, s2 := by simp, s4 := by simp, st := by simp, l8 := rfl, l2 := rfl,
           l4 := rfl, lt := rfl, b8 := by decide, b2 := by decide, b4 := by decide, bt := by decide,
           nodes := ?_, beamNodes := ?_, g8 := by simp, g2 := by simp, g4 := by simp, gt := by simp,
           g8' := by simp, g2' := by simp, g4' := by simp, gt' := by simp }
  all_goals
    intro e he n hn l hl
    cases hl
    revert e n
    decide

-- non-vacuity of C60 (tests)
example : partAllElementIds false ⟨[], [(0, 3), (4, 9)], [], []⟩ = .ok [3, 9] ∧
    partAllElementIds true ⟨[(0, 3), (4, 9)], [], [(1, 10)], []⟩ = .ok [3, 9, 10] ∧
    partAllElementIds false ⟨[(0, 3), (4, 9)], [], [(1, 10)], []⟩ = .ub := by decide +kernel

-- the excluded case of C59 is met by ids that do not ascend (test)
example : indexForId 8 [7, 9, 8] = .ok none := by decide +kernel

end Dyna.D3
