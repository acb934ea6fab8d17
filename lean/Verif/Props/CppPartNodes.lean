import Verif.CppPartNodes
import Verif.Props.D3PartNodes
/-!
# Nodes of a part in C++ (C75)
-/

namespace Dyna.D3

open Dyna

theorem cppTable_some {α : Type} {t : Option (List α)} {l : List α} (h : cppTable t = some l) : t = some l := by
  match t with
  | none => cases h
  | some [] => cases h
  | some (x :: xs) => exact h

theorem cppTable_eq {α : Type} {l : List α} (h : l ≠ []) : cppTable (some l) = some l := by
  cases l with
  | nil => exact absurd rfl h
  | cons x xs => rfl

/-- Without a connectivity of thick shells the tables that arrive are tables of the file. -/
theorem Tables.cpp {p : Plot} {nodeIds : Option (List Nat)} {g : Given} {i8 i2 i4 it : List Nat}
    {e8 e2 e4 et : List Con} (T : Tables p nodeIds g i8 i2 i4 it e8 e2 e4 et)
    (hg : g.thick = none ∨ g.thick = some []) : Tables p nodeIds (cppGiven g) i8 i2 i4 it e8 e2 e4 et :=
  { T with
    g8 := fun l h => T.g8 l (cppTable_some h)
    g2 := fun l h => T.g2 l (cppTable_some h)
    g4 := fun l h => T.g4 l (cppTable_some h)
    gt := fun l h => T.gt l (cppTable_some h)
    g8' := fun l h => by
      have : cppTable g.thick = some l := h
      rcases hg with h0 | h0 <;> rw [h0] at this <;> cases this
    g2' := fun l h => T.g2' l (cppTable_some h)
    g4' := fun l h => T.g4' l (cppTable_some h)
    gt' := fun l h => T.gt' l (cppTable_some h) }

/-! ## Another connectivity than the one of the file -/

/-- Specification: `y` is the value of a node of the element of `other` with the number of an element of `els` with this
material. -/
def IsNodeOf (k : Nat) (value : Nat → Option Nat) (material : Nat) (els other : List Con) (y : Nat) : Prop :=
  ∃ (i : Nat) (e e' : Con), els[i]? = some e ∧ e.material = material ∧ other[i]? = some e' ∧
    ∃ n ∈ e'.nodes.take k, value n = some y

theorem index_unique {ids : List Nat} (hids : ids.Pairwise (· < ·)) {i j id : Nat} (hi : ids[i]? = some id)
    (hj : ids[j]? = some id) : i = j := by
  obtain ⟨h1, h2⟩ := List.getElem?_eq_some_iff.1 hi
  obtain ⟨h3, h4⟩ := List.getElem?_eq_some_iff.1 hj
  rcases Nat.lt_trichotomy i j with hlt | he | hlt
  · have := List.pairwise_iff_getElem.1 hids i j h1 h3 hlt
    omega
  · exact he
  · have := List.pairwise_iff_getElem.1 hids j i h3 h1 hlt
    omega

theorem addPartNodes_given {p : Plot} {readI : Plot → Call (List Nat)} {readE : Plot → Call (List Con)} {ids : List Nat}
    {cap k : Nat} {nodeIds : Option (List Nat)} {idsArg : Option (List Nat)} {partIds : List Nat} (other : List Con)
    (hi : readI p = .ok (p, some ids)) (hia : ∀ l, idsArg = some l → l = ids) (hine : ids ≠ []) (hp : partIds ≠ [])
    (acc : List Nat) :
    addPartNodes cap k nodeIds partIds idsArg (some other) readI readE p acc =
      (pushElements cap k nodeIds ids ids.length other partIds acc >>= fun acc => (.ok (p, acc) : Res _)) := by
  unfold addPartNodes
  rw [if_neg hp]
  cases idsArg with
  | some li =>
    have := hia li rfl
    subst this
    simp
  | none => simp [hi, hine]

theorem addPartNodes_other {p : Plot} {readI : Plot → Call (List Nat)}
    {readE : Plot → Call (List Con)} {ids : List Nat} {els : List Con} {part cap k : Nat}
    {nodeIds : Option (List Nat)} {idsArg : Option (List Nat)} (other : List Con)
    (hi : readI p = .ok (p, some ids))
    (hia : ∀ l, idsArg = some l → l = ids)
    (hids : ids.Pairwise (· < ·)) (hlen : ids.length < u64) (hel : els.length = ids.length)
    (hval : ∀ e ∈ other, ∀ n ∈ e.nodes.take k, ∃ v, nodeValue nodeIds n = .ok v)
    (hoth : ∀ (i : Nat) (e : Con), els[i]? = some e → e.material = part → i < other.length)
    (acc : List Nat) (hs : acc.Pairwise (· < ·))
    (hcap : acc.length + k * (members part els ids).length ≤ cap) :
    ∃ l, addPartNodes cap k nodeIds ((members part els ids).map (·.2)) idsArg (some other) readI readE p
      acc = .ok (p, l) ∧ l.Pairwise (· < ·) ∧
      l.length ≤ acc.length + k * (members part els ids).length ∧
      ∀ y, y ∈ l ↔ y ∈ acc ∨ IsNodeOf k (valueOf nodeIds) part els other y := by
  have hsem : ∀ y, (∃ (i : Nat) (e : Con) (n : Nat), (∃ id ∈ (members part els ids).map (·.2), ids[i]? = some id) ∧
      other[i]? = some e ∧ n ∈ e.nodes.take k ∧ nodeValue nodeIds n = .ok y) ↔
      IsNodeOf k (valueOf nodeIds) part els other y := by
    intro y
    constructor
    · rintro ⟨i, e, n, ⟨id, hid, hi⟩, he, hn, hy⟩
      obtain ⟨j, e', hj1, hj2, hj3⟩ := (members_ids hel id).1 hid
      have hij := index_unique hids hi hj3
      subst hij
      exact ⟨i, e', e, hj1, hj2, he, n, hn, (nodeValue_iff nodeIds n y).1 hy⟩
    · rintro ⟨i, e, e', he, hm, he', n, hn, hy⟩
      have hi' : i < ids.length := by have := (List.getElem?_eq_some_iff.1 he).1; omega
      exact ⟨i, e', n, ⟨ids[i], (members_ids hel _).2 ⟨i, e, he, hm,
        List.getElem?_eq_getElem hi'⟩, List.getElem?_eq_getElem hi'⟩, he', hn, (nodeValue_iff nodeIds n y).2 hy⟩
  by_cases h0 : (members part els ids).map (·.2) = []
  · unfold addPartNodes
    rw [if_pos h0]
    refine ⟨acc, rfl, hs, by omega, fun y => ⟨Or.inl, fun h => ?_⟩⟩
    rcases h with h | h
    · exact h
    · obtain ⟨i, e, n, ⟨id, hid, _⟩, _⟩ := (hsem y).2 h
      rw [h0] at hid
      cases hid
  · have hine : ids ≠ [] := by
      rintro rfl
      have : els = [] := by simpa using hel
      subst this
      exact h0 rfl
    rw [addPartNodes_given other hi hia hine h0]
    obtain ⟨l, h1, h2, h3, h4⟩ := pushElements_other cap k nodeIds ids other hids hlen hval
      ((members part els ids).map (·.2)) acc hs (by simpa using hcap)
      (fun id hid => by
        obtain ⟨j, e', _, _, hj3⟩ := (members_ids hel id).1 hid
        exact List.mem_of_getElem? hj3)
      (fun id hid i hi => by
        obtain ⟨j, e', hj1, hj2, hj3⟩ := (members_ids hel id).1 hid
        have hij := index_unique hids hi hj3
        subst hij
        exact hoth i e' hj1 hj2)
    exact ⟨l, by rw [h1]; rfl, h2, by simpa using h3, fun y => by rw [h4, hsem]⟩

/-- One of the elements has a number behind the end of the other connectivity. -/
theorem pushElements_behind (cap k : Nat) (nodeIds : Option (List Nat)) (ids : List Nat) (other : List Con)
    (hids : ids.Pairwise (· < ·)) (hlen : ids.length < u64)
    (hval : ∀ e ∈ other, ∀ n ∈ e.nodes.take k, ∃ v, nodeValue nodeIds n = .ok v) (partIds : List Nat) :
    ∀ (acc : List Nat), acc.Pairwise (· < ·) → acc.length + k * partIds.length ≤ cap →
    (∀ id ∈ partIds, id ∈ ids) → (∃ id ∈ partIds, ∃ (i : Nat), ids[i]? = some id ∧ other.length ≤ i) →
    pushElements cap k nodeIds ids ids.length other partIds acc = .ub := by
  induction partIds with
  | nil => rintro acc _ _ _ ⟨id, h, _⟩; cases h
  | cons id rest ih =>
    intro acc hs hcap hin hbad
    have hmem := hin id (by simp)
    have hne : ids ≠ [] := fun e => by rw [e] at hmem; cases hmem
    obtain ⟨i, hi1, hi2⟩ := (c01_index_for_id_exact ids (hids.imp Nat.le_of_lt) hne hlen id).1 hmem
    have hb : bsearch (fun i => (ids[i]?).map (d3WordCmp id)) 0 (sub64 ids.length 1) = .ok (some i) := hi1
    by_cases hiel : i < other.length
    · have hke : k * (id :: rest).length = k * rest.length + k := by
        simp only [List.length_cons]; exact Nat.mul_succ _ _
      rw [hke] at hcap
      have htk : (other[i].nodes.take k).length ≤ k := by simp; omega
      obtain ⟨l1, h1, h2, h3, h4⟩ := pushNodes_spec cap nodeIds (other[i].nodes.take k) acc hs (by omega)
        (hval _ (List.getElem_mem hiel))
      have hrest : ∃ id ∈ rest, ∃ (i : Nat), ids[i]? = some id ∧ other.length ≤ i := by
        obtain ⟨id', hid', j, hj, hjl⟩ := hbad
        rcases List.mem_cons.1 hid' with rfl | h
        · have := index_unique hids hi2 hj
          omega
        · exact ⟨id', h, j, hj, hjl⟩
      have := ih l1 h2 (by omega) (fun m hm => hin m (by simp [hm])) hrest
      simp only [pushElements, hb, Res.bind_ok, List.getElem?_eq_getElem hiel, Res.ofOption_some, h1, this]
    · simp only [pushElements, hb, Res.bind_ok, List.getElem?_eq_none (Nat.le_of_not_lt hiel)]
      rfl

/-! ## C75 -/

/-- The values of the nodes: ids, or indices. -/
theorem nodes_values {p : Plot} {nodeIds : Option (List Nat)} {g : Given} {i8 i2 i4 it : List Nat}
    {e8 e2 e4 et : List Con} (T : Tables p nodeIds g i8 i2 i4 it e8 e2 e4 et) (es : List Con)
    (hes : ∀ e ∈ es, e ∈ e8 ++ e4 ++ et) (k : Nat) : ∀ e ∈ es,
      ∀ n ∈ e.nodes.take k, ∃ v, nodeValue nodeIds n = .ok v := by
  intro e he n hn
  have hn' : n ∈ e.nodes := (List.take_sublist _ _).subset hn
  cases hni : nodeIds with
  | none => exact ⟨n, rfl⟩
  | some l =>
    have := T.nodes e (hes e he) n hn' l hni
    exact ⟨l[n], by simp [nodeValue, List.getElem?_eq_getElem this]⟩

theorem beam_values {p : Plot} {nodeIds : Option (List Nat)} {g : Given} {i8 i2 i4 it : List Nat}
    {e8 e2 e4 et : List Con} (T : Tables p nodeIds g i8 i2 i4 it e8 e2 e4 et) : ∀ e ∈ e2,
      ∀ n ∈ e.nodes.take 2, ∃ v, nodeValue nodeIds n = .ok v := by
  intro e he n hn
  cases hni : nodeIds with
  | none => exact ⟨n, rfl⟩
  | some l =>
    have := T.beamNodes e he n hn l hni
    exact ⟨l[n], by simp [nodeValue, List.getElem?_eq_getElem this]⟩

theorem partNodes_cpp {p : Plot} {nodeIds : Option (List Nat)} {g : Given} {i8 i2 i4 it : List Nat}
    {e8 e2 e4 et : List Con} (T : Tables p nodeIds g i8 i2 i4 it e8 e2 e4 et) (hg : g.thick = some et) (hne : et ≠ [])
    (m : Nat) :
    ((∀ (i : Nat) (e : Con), e8[i]? = some e → e.material = m → i < et.length) →
      ∃ l, partNodes nodeIds (cppGiven g) p ⟨members m e8 i8, members m et it, members m e2 i2, members m e4 i4⟩ = .ok (p, l) ∧
        l.Pairwise (· < ·) ∧
        ∀ y, y ∈ l ↔ IsNodeOf 8 (valueOf nodeIds) m e8 et y ∨ IsNode 8 (valueOf nodeIds) m et y ∨
          IsNode 2 (valueOf nodeIds) m e2 y ∨ IsNode 4 (valueOf nodeIds) m e4 y) ∧
    ((∃ (i : Nat) (e : Con), e8[i]? = some e ∧ e.material = m ∧ et.length ≤ i) →
      partNodes nodeIds (cppGiven g) p ⟨members m e8 i8, members m et it, members m e2 i2, members m e4 i4⟩ = .ub) := by
  have hv := nodes_values T
  have h8g : (cppGiven g).solids = some et := by show cppTable g.thick = _; rw [hg, cppTable_eq hne]
  constructor
  · intro hin
    unfold partNodes partNodeCap
    simp only
    rw [h8g]
    obtain ⟨a1, h1, s1, c1, m1⟩ := addPartNodes_other (part := m) (nodeIds := nodeIds) (els := e8)
      (idsArg := (cppGiven g).solidIds) (readE := readSolidElements)
      (cap := (members m e8 i8).length * 8 + (members m e2 i2).length * 2 + (members m e4 i4).length * 4 +
        (members m et it).length * 8) (k := 8) et T.h8 (fun l h => T.g8 l (cppTable_some h)) T.s8 T.b8 T.l8
      (hv et (fun e h => by simp [h]) 8) hin [] (by simp) (by simp; omega)
    obtain ⟨a2, h2, s2, c2, m2⟩ := addPartNodes_spec (part := m) (nodeIds := nodeIds) (idsArg := (cppGiven g).beamIds)
      (elsArg := (cppGiven g).beams)
      (cap := (members m e8 i8).length * 8 + (members m e2 i2).length * 2 + (members m e4 i4).length * 4 +
        (members m et it).length * 8) (k := 2) T.h2 T.h2' (fun l h => T.g2 l (cppTable_some h))
      (fun l h => T.g2' l (cppTable_some h)) T.s2 T.b2 T.l2
      (beam_values T) a1 s1 (by simp at c1; omega)
    obtain ⟨a3, h3, s3, c3, m3⟩ := addPartNodes_spec (part := m) (nodeIds := nodeIds) (idsArg := (cppGiven g).shellIds)
      (elsArg := (cppGiven g).shells)
      (cap := (members m e8 i8).length * 8 + (members m e2 i2).length * 2 + (members m e4 i4).length * 4 +
        (members m et it).length * 8) (k := 4) T.h4 T.h4' (fun l h => T.g4 l (cppTable_some h))
      (fun l h => T.g4' l (cppTable_some h)) T.s4 T.b4 T.l4
      (hv e4 (fun e h => by simp [h]) 4) a2 s2 (by simp at c1; omega)
    obtain ⟨a4, h4, s4, c4, m4⟩ := addPartNodes_spec (part := m) (nodeIds := nodeIds) (idsArg := (cppGiven g).thickIds)
      (elsArg := (cppGiven g).thick)
      (cap := (members m e8 i8).length * 8 + (members m e2 i2).length * 2 + (members m e4 i4).length * 4 +
        (members m et it).length * 8) (k := 8) T.ht T.ht' (fun l h => T.gt l (cppTable_some h))
      (fun l h => T.gt' l (cppTable_some h)) T.st T.bt T.lt
      (hv et (fun e h => by simp [h]) 8) a3 s3 (by simp at c1; omega)
    refine ⟨a4, ?_, s4, fun y => ?_⟩
    · rw [h1]
      simp only [Res.bind_ok]
      rw [h2]
      simp only [Res.bind_ok]
      rw [h3]
      simp only [Res.bind_ok]
      rw [h4]
    · rw [m4, m3, m2, m1]
      constructor
      · rintro ((((h | h) | h) | h) | h)
        · cases h
        · exact .inl h
        · exact .inr (.inr (.inl h))
        · exact .inr (.inr (.inr h))
        · exact .inr (.inl h)
      · rintro (h | h | h | h)
        · exact .inl (.inl (.inl (.inr h)))
        · exact .inr h
        · exact .inl (.inl (.inr h))
        · exact .inl (.inr h)
  · rintro ⟨i, e, hi, hm, hl⟩
    have hi' : i < i8.length := by have := (List.getElem?_eq_some_iff.1 hi).1; have := T.l8; omega
    have hmem : i8[i] ∈ (members m e8 i8).map (·.2) :=
      (members_ids T.l8 _).2 ⟨i, e, hi, hm, List.getElem?_eq_getElem hi'⟩
    unfold partNodes partNodeCap
    simp only
    rw [h8g, addPartNodes_given (idsArg := (cppGiven g).solidIds) et T.h8 (fun l h => T.g8 l (cppTable_some h)) (fun h0 => by rw [h0] at hi'; simp at hi')
        (fun h0 => by rw [h0] at hmem; cases hmem),
      pushElements_behind _ 8 nodeIds i8 et T.s8 T.b8 (hv et (fun e h => by simp [h]) 8) _ [] (by simp) (by simp; omega)
        (fun id hid => by
          obtain ⟨j, e', _, _, hj3⟩ := (members_ids T.l8 id).1 hid
          exact List.mem_of_getElem? hj3)
        ⟨i8[i], hmem, i, List.getElem?_eq_getElem hi', hl⟩]
    rfl

/-- C75 for calls without the connectivity of thick shells: the C++ functions return the nodes of the elements of the part,
ascending, every one once, whichever other tables are passed and whether or not arrays are empty. (Missing: calls with the
connectivity of thick shells, see `c75_exact`.) -/
theorem c75_node_ids_partial {p : Plot} {nids : List Nat} {g : Given} {i8 i2 i4 it : List Nat}
    {e8 e2 e4 et : List Con} (T : Tables p (some nids) g i8 i2 i4 it e8 e2 e4 et)
    (hg : g.thick = none ∨ g.thick = some [])
    (hn : readNodeIds p = .ok (p, some nids)) (given : Bool)
    {m : Nat} {q : Plot} {part : Part} (h : readPart p m = .ok (q, some part)) :
    ∃ l, cppPartNodeIds (if given then some nids else none) g p part = .ok (p, some l) ∧
      l.Pairwise (· < ·) ∧
      ∀ y, y ∈ l ↔ IsNode 8 (fun n => nids[n]?) m (e8 ++ et) y ∨
        IsNode 2 (fun n => nids[n]?) m e2 y ∨ IsNode 4 (fun n => nids[n]?) m e4 y := by
  have := c59_part_node_ids (T.cpp hg) hn (given && !nids.isEmpty) h
  unfold cppPartNodeIds
  have he : cppTable (if given then some nids else none) = if (given && !nids.isEmpty) = true then some nids else none := by
    cases given <;> cases nids <;> rfl
  rw [he]
  exact this

/-- C75 for calls without the connectivity of thick shells: the same for indices and their number. -/
theorem c75_node_indices_partial {p : Plot} {g : Given} {i8 i2 i4 it : List Nat}
    {e8 e2 e4 et : List Con} (T : Tables p none g i8 i2 i4 it e8 e2 e4 et)
    (hg : g.thick = none ∨ g.thick = some [])
    {m : Nat} {q : Plot} {part : Part} (h : readPart p m = .ok (q, some part)) :
    ∃ l, cppPartNodeIndices g p part = .ok (p, some l) ∧ cppPartNumNodes g p part = .ok (p, some l.length) ∧
      l.Pairwise (· < ·) ∧
      ∀ y, y ∈ l ↔ IsNode 8 some m (e8 ++ et) y ∨ IsNode 2 some m e2 y ∨ IsNode 4 some m e4 y :=
  c59_part_node_indices (T.cpp hg) h

/-- C75 is violated by calls with the connectivity of the thick shells of the file: for every solid of the part the nodes of
the thick shell with the same number are returned instead of its own. If a solid of the part has a number for which there is
no thick shell, memory behind the connectivity is read. -/
theorem c75_exact {p : Plot} {nids : List Nat} {g : Given} {i8 i2 i4 it : List Nat}
    {e8 e2 e4 et : List Con} (T : Tables p (some nids) g i8 i2 i4 it e8 e2 e4 et) (hg : g.thick = some et) (hne : et ≠ [])
    (hn : readNodeIds p = .ok (p, some nids)) (given : Bool)
    {m : Nat} {q : Plot} {part : Part} (h : readPart p m = .ok (q, some part)) :
    ((∀ (i : Nat) (e : Con), e8[i]? = some e → e.material = m → i < et.length) →
      ∃ l, cppPartNodeIds (if given then some nids else none) g p part = .ok (p, some l) ∧
        l.Pairwise (· < ·) ∧
        ∀ y, y ∈ l ↔ IsNodeOf 8 (fun n => nids[n]?) m e8 et y ∨ IsNode 8 (fun n => nids[n]?) m et y ∨
          IsNode 2 (fun n => nids[n]?) m e2 y ∨ IsNode 4 (fun n => nids[n]?) m e4 y) ∧
    ((∃ (i : Nat) (e : Con), e8[i]? = some e ∧ e.material = m ∧ et.length ≤ i) →
      cppPartNodeIds (if given then some nids else none) g p part = .ub) := by
  have he : cppTable (if given then some nids else none) = if (given && !nids.isEmpty) = true then some nids else none := by
    cases given <;> cases nids <;> rfl
  have hcall : ∀ b : Bool, partNodeIds (if b then some nids else none) (cppGiven g) p part =
      (partNodes (some nids) (cppGiven g) p part >>= fun x => (.ok (x.1, some x.2) : Res _)) := by
    intro b
    cases b with
    | true => simp only [partNodeIds, if_true]; rfl
    | false => simp only [partNodeIds, Bool.false_eq_true, if_false, hn, Res.bind_ok]; rfl
  obtain ⟨k1, k2⟩ := partNodes_cpp T hg hne m
  rw [← T.part h] at k1 k2
  refine ⟨fun hin => ?_, fun hex => ?_⟩
  · obtain ⟨l, h1, h2, h3⟩ := k1 hin
    refine ⟨l, ?_, h2, h3⟩
    unfold cppPartNodeIds
    rw [he, hcall, h1]
    rfl
  · unfold cppPartNodeIds
    rw [he, hcall, k2 hex]
    rfl

/-- C75: the connectivity of solids that the caller passes is never used. -/
theorem c75_solids_ignored (nodeIds : Option (List Nat)) (g : Given) (s : Option (List Con)) (p : Plot) (part : Part) :
    cppPartNodeIds nodeIds { g with solids := s } p part = cppPartNodeIds nodeIds g p part ∧
    cppPartNodeIndices { g with solids := s } p part = cppPartNodeIndices g p part ∧
    cppPartNumNodes { g with solids := s } p part = cppPartNumNodes g p part := ⟨rfl, rfl, rfl⟩

/-! ## A file for which the result is wrong -/

/-- A solid with the first node only, and a shell of another part. Part of the specification, models no code. -/
def solidGeometry : List Nat :=
  [11, 12, 13, 14, 15, 16] ++ [1, 1, 1, 1, 1, 1, 1, 1, 1] ++ [2, 1, 2, 1, 2, 1, 2, 1, 2] ++
  [1, 2, 1, 0, 0, 3] ++ [1, 2, 2, 1, 3]

/-- Part of the specification, models no code. -/
def solidFiles : List Bytes :=
  [pack (sampleControl sampleSet ++ solidGeometry ++ sampleIds ++ sampleHeaderBlocks),
   pack (sampleState 1000 ++ sampleState 2000 ++ [eof32]),
   pack (sampleState 3000 ++ [eof32, 0])]

/-- C75 is violated: part 0 of this file has one solid with one node. The function returns this node, but if the connectivity
of the thick shells is passed, it returns two nodes. All hypotheses of the theorems above are met. -/
theorem c75_wrong_nodes : ∃ (p : Plot) (part : Part) (e8 e2 e4 et : List Con), openPlot solidFiles = .ok p ∧
    readNodeIds p = .ok (p, some [101, 102]) ∧
    Tables p (some [101, 102]) {} [201] [301] [401] [501] e8 e2 e4 et ∧
    Tables p (some [101, 102]) { thick := some et } [201] [301] [401] [501] e8 e2 e4 et ∧ et ≠ [] ∧
    readPart p 0 = .ok (p, some part) ∧
    cppPartNodeIds none {} p part = .ok (p, some [101]) ∧
    cppPartNodeIds none { thick := some et } p part = .ok (p, some [101, 102]) := by
  obtain ⟨p, h1, h2⟩ := Res.is_iff (r := openPlot solidFiles) (f := fun p =>
    decide (readNodeIds p = .ok (p, some [101, 102])) &&
    (decide (readSolidIds p = .ok (p, some [201])) &&
    (decide (readSolidElements p = .ok (p, some [⟨[0, 0, 0, 0, 0, 0, 0, 0], 0⟩])) &&
    (decide (readBeamIds p = .ok (p, some [301])) &&
    (decide (readBeamElements p = .ok (p, some [⟨[0, 1, 0], 2⟩])) &&
    (decide (readShellIds p = .ok (p, some [401])) &&
    (decide (readShellElements p = .ok (p, some [⟨[0, 1, 1, 0], 2⟩])) &&
    (decide (readThickIds p = .ok (p, some [501])) &&
    (decide (readThickElements p = .ok (p, some [⟨[1, 0, 1, 0, 1, 0, 1, 0], 1⟩])) &&
    (decide (readPart p 0 = .ok (p, some ⟨[(0, 201)], [], [], []⟩)) &&
    (decide (cppPartNodeIds none {} p ⟨[(0, 201)], [], [], []⟩ = .ok (p, some [101])) &&
    decide (cppPartNodeIds none { thick := some [⟨[1, 0, 1, 0, 1, 0, 1, 0], 1⟩] } p ⟨[(0, 201)], [], [], []⟩ =
      .ok (p, some [101, 102])))))))))))))
    (by decide +kernel)
  simp only [Bool.and_eq_true, decide_eq_true_eq] at h2
  obtain ⟨a, b1, b2, b3, b4, b5, b6, b7, b8, c, d1, d2⟩ := h2
  refine ⟨p, _, [⟨[0, 0, 0, 0, 0, 0, 0, 0], 0⟩], [⟨[0, 1, 0], 2⟩], [⟨[0, 1, 1, 0], 2⟩], _, h1, a, ?_, ?_, ?_, c, d1, d2⟩
  · refine { h8 := b1, h8' := b2, h2 := b3, h2' := b4, h4 := b5, h4' := b6, ht := b7, ht' := b8,
             s8 := by simp, s2 := by simp, s4 := by simp, st := by simp, l8 := rfl, l2 := rfl,
             l4 := rfl, lt := rfl, b8 := by decide, b2 := by decide, b4 := by decide, bt := by decide,
             nodes := ?_, beamNodes := ?_, g8 := by simp, g2 := by simp, g4 := by simp, gt := by simp,
             g8' := by simp, g2' := by simp, g4' := by simp, gt' := by simp }
    all_goals
      intro e he n hn l hl
      cases hl
      revert e n
      decide
  · refine { h8 := b1, h8' := b2, h2 := b3, h2' := b4, h4 := b5, h4' := b6, ht := b7, ht' := b8,
             s8 := by simp, s2 := by simp, s4 := by simp, st := by simp, l8 := rfl, l2 := rfl,
             l4 := rfl, lt := rfl, b8 := by decide, b2 := by decide, b4 := by decide, bt := by decide,
             nodes := ?_, beamNodes := ?_, g8 := by simp, g2 := by simp, g4 := by simp, gt := by simp,
             g8' := by simp, g2' := by simp, g4' := by simp, gt' := by intro l hl; cases hl; rfl }
    all_goals
      intro e he n hn l hl
      cases hl
      revert e n
      decide
  · simp

end Dyna.D3
