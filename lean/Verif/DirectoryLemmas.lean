import Verif.Directory
/-!
# Lemmas about the binout directory
-/

namespace Dyna

/-! ## Specification of directories -/

/-- What a path designates. Part of the specification, models no code. -/
inductive Node where
  | folder
  | file (info : FileInfo)
deriving DecidableEq, Repr

/-- The node a component list designates in a tree, independent of the order of children.
Part of the specification, models no code. -/
def nodeAt (kids : List Entry) : List Bytes → Option Node
  | [] => some .folder
  | c :: cs =>
    match findEntry kids c with
    | none => none
    | some (.file _ info) => if cs = [] then some (.file info) else none
    | some (.folder _ _ ch) => nodeAt ch cs

/-- Every folder lists its children in strictly increasing order of names.
Part of the specification, models no code. -/
inductive SortedTree : List Entry → Prop
  | mk (kids : List Entry) (sorted : kids.Pairwise (fun a b => LexLt a.name b.name))
      (sub : ∀ n fr ch, Entry.folder n fr ch ∈ kids → SortedTree ch) : SortedTree kids

/-- No entry has a released name. Part of the specification, models no code. -/
inductive LiveTree : List Entry → Prop
  | mk (kids : List Entry)
      (live : ∀ n fr ch, Entry.folder n fr ch ∈ kids → fr = false)
      (sub : ∀ n fr ch, Entry.folder n fr ch ∈ kids → LiveTree ch) : LiveTree kids

/-- All names consist of 7-bit characters. Part of the specification, models no code. -/
inductive AsciiTree : List Entry → Prop
  | mk (kids : List Entry) (names : ∀ e ∈ kids, Ascii e.name)
      (sub : ∀ n fr ch, Entry.folder n fr ch ∈ kids → AsciiTree ch) : AsciiTree kids

theorem SortedTree.sorted {kids} (h : SortedTree kids) :
    kids.Pairwise (fun a b => LexLt a.name b.name) := by cases h; assumption
theorem SortedTree.sub {kids} (h : SortedTree kids) {n fr ch}
    (hm : Entry.folder n fr ch ∈ kids) : SortedTree ch := by
  cases h with | mk _ _ s => exact s _ _ _ hm
theorem LiveTree.sub {kids} (h : LiveTree kids) {n fr ch}
    (hm : Entry.folder n fr ch ∈ kids) : fr = false ∧ LiveTree ch := by
  cases h with | mk _ l s => exact ⟨l _ _ _ hm, s _ _ _ hm⟩
theorem LiveTree.mk' {kids} (h : ∀ n fr ch, Entry.folder n fr ch ∈ kids → fr = false ∧ LiveTree ch) :
    LiveTree kids := ⟨kids, fun _ _ _ hm => (h _ _ _ hm).1, fun _ _ _ hm => (h _ _ _ hm).2⟩
theorem AsciiTree.names {kids} (h : AsciiTree kids) {e} (hm : e ∈ kids) : Ascii e.name := by
  cases h with | mk _ n _ => exact n _ hm
theorem AsciiTree.sub {kids} (h : AsciiTree kids) {n fr ch}
    (hm : Entry.folder n fr ch ∈ kids) : AsciiTree ch := by
  cases h with | mk _ _ s => exact s _ _ _ hm

theorem SortedTree.nil : SortedTree [] := ⟨[], .nil, by simp⟩
theorem LiveTree.nil : LiveTree [] := LiveTree.mk' (by simp)
theorem AsciiTree.nil : AsciiTree [] := ⟨[], by simp, by simp⟩

theorem LiveTree.nameOk {kids} (h : LiveTree kids) {e} (hm : e ∈ kids) : e.nameOk = true := by
  cases e with
  | file _ _ => rfl
  | folder n fr ch => have := (h.sub hm).1; subst this; rfl

/-! ## Partial comparisons

A search whose comparison is undefined at some places either hits such a place or behaves
as if the comparison were defined everywhere. -/

theorem bsearchInsert_partial (cmp cmp' : Nat → Option Int) (s e : Nat)
    (h : ∀ i, cmp' i = none ∨ cmp' i = cmp i) :
    bsearchInsert cmp' s e = .ub ∨ bsearchInsert cmp' s e = bsearchInsert cmp s e := by
  induction hn : e - s using Nat.strongRecOn generalizing s e with
  | ind n ih =>
  rw [bsearchInsert, bsearchInsert.eq_def cmp]
  by_cases hEq : s = e
  · simp only [hEq, if_true]
    rcases h e with h1 | h1 <;> simp [h1]
  · by_cases hlt : e < s
    · simp [hEq, hlt]
    · simp only [hEq, if_false, hlt, dif_neg, not_false_eq_true]
      rcases h (s + (e - s) / 2) with h1 | h1
      · simp [h1]
      · rw [h1]
        cases cmp (s + (e - s) / 2) with
        | none => simp
        | some c =>
          simp only
          split
          · exact ih _ (by omega) _ _ rfl
          · split
            · split
              · exact ih _ (by omega) _ _ rfl
              · exact ih _ (by omega) _ _ rfl
            · exact .inr rfl

theorem searchInsert_spec {kids : List Entry} (value : Bytes)
    (hs : kids.Pairwise (fun a b => LexLt a.name b.name))
    (hl : ∀ e ∈ kids, e.nameOk = true) :
    (∃ i e, searchInsert value kids = .ok (true, i) ∧ kids[i]? = some e ∧ e.name = value) ∨
    (∃ i, searchInsert value kids = .ok (false, i) ∧ i ≤ kids.length ∧
      (∀ e ∈ kids.take i, LexLt e.name value) ∧ (∀ e ∈ kids.drop i, LexLt value e.name)) := by
  unfold searchInsert
  by_cases h0 : kids.length = 0
  · have : kids = [] := List.length_eq_zero_iff.1 h0
    subst this
    right; exact ⟨0, by simp⟩
  · rw [if_neg h0]
    let c : Nat → Int := fun i => match kids[i]? with
      | some e => strcmp value e.name
      | none => 0
    have hci : ∀ i (h : i < kids.length), c i = strcmp value kids[i].name := fun i h => by
      simp [c, List.getElem?_eq_getElem h]
    have hcmp : ∀ i, 0 ≤ i → i ≤ kids.length - 1 → cmpInsert value kids i = some (c i) := by
      intro i _ hi
      have hi' : i < kids.length := by omega
      simp [cmpInsert, c, List.getElem?_eq_getElem hi', hl _ (List.getElem_mem hi')]
    have hd : Descending c 0 (kids.length - 1) := by
      intro i j _ hij hj
      have hj' : j < kids.length := by omega
      have hi' : i < kids.length := by omega
      rw [hci i hi', hci j hj']
      by_cases he : i = j
      · subst he; exact ⟨id, id⟩
      · have hlt : LexLt kids[i].name kids[j].name :=
          (List.pairwise_iff_getElem.1 hs) i j hi' hj' (by omega)
        refine ⟨fun h => ?_, fun h => ?_⟩
        · have : ¬ LexLt value kids[i].name := fun hx => by
            have := (strcmp_neg _ _).2 (hx.trans hlt); omega
          have h2 := (strcmp_neg value kids[i].name)
          have : ¬ strcmp value kids[i].name < 0 := fun hy => this (h2.1 hy)
          omega
        · have := (strcmp_pos _ _).1 h
          exact (strcmp_pos _ _).2 (hlt.trans this)
    rcases bsearchInsert_spec _ c 0 (kids.length - 1) (by omega) hcmp hd with
      ⟨i, h1, _, h3, h4⟩ | ⟨i, h1, _, h3, h4, h5⟩
    · left
      have hi' : i < kids.length := by omega
      refine ⟨i, kids[i], h1, List.getElem?_eq_getElem hi', ?_⟩
      rw [hci i hi'] at h4
      exact ((strcmp_eq_zero _ _).1 h4).symm
    · right
      refine ⟨i, h1, by omega, ?_, ?_⟩
      · intro e he
        obtain ⟨j, hj, rfl⟩ := List.mem_take_iff_getElem.1 he
        have := h4 j (by omega) (by omega)
        rw [hci j (by omega)] at this
        exact (strcmp_pos _ _).1 this
      · intro e he
        obtain ⟨j, hj, rfl⟩ := List.mem_drop_iff_getElem.1 he
        have := h5 (i + j) (by omega) (by omega)
        rw [hci (i + j) (by omega)] at this
        exact (strcmp_neg _ _).1 this

/-- Entries with all names readable. Part of the specification, models no code. -/
def revive : Entry → Entry
  | .file n i => .file n i
  | .folder n _ ch => .folder n false ch

@[simp] theorem revive_name (e : Entry) : (revive e).name = e.name := by cases e <;> rfl
@[simp] theorem revive_ok (e : Entry) : (revive e).nameOk = true := by cases e <;> rfl

/-- The search without assuming that names are readable: undefined behaviour or the
correct answer. -/
theorem searchInsert_spec' {kids : List Entry} (value : Bytes)
    (hs : kids.Pairwise (fun a b => LexLt a.name b.name)) :
    searchInsert value kids = .ub ∨
    (∃ i e, searchInsert value kids = .ok (true, i) ∧ kids[i]? = some e ∧ e.name = value) ∨
    (∃ i, searchInsert value kids = .ok (false, i) ∧ i ≤ kids.length ∧
      (∀ e ∈ kids.take i, LexLt e.name value) ∧ (∀ e ∈ kids.drop i, LexLt value e.name)) := by
  have hpart : searchInsert value kids = .ub ∨
      searchInsert value kids = searchInsert value (kids.map revive) := by
    unfold searchInsert
    simp only [List.length_map]
    split
    · exact .inr rfl
    · apply bsearchInsert_partial
      intro i
      unfold cmpInsert
      simp only [List.getElem?_map]
      cases kids[i]? with
      | none => simp
      | some e => cases h : e.nameOk <;> simp [h]
  rcases hpart with h | h
  · exact .inl h
  · right
    rw [h]
    rcases searchInsert_spec (kids := kids.map revive) value
      (by rw [List.pairwise_map]; simpa using hs) (by simp) with
      ⟨i, e, h1, h2, h3⟩ | ⟨i, h1, h2, h3, h4⟩
    · left
      rw [List.getElem?_map] at h2
      cases hk : kids[i]? with
      | none => simp [hk] at h2
      | some x => simp [hk] at h2; subst h2; exact ⟨i, x, h1, hk, by simpa using h3⟩
    · right
      refine ⟨i, h1, by simpa using h2, ?_, ?_⟩
      · intro e he
        have := h3 (revive e) (by rw [← List.map_take]; exact List.mem_map_of_mem he)
        simpa using this
      · intro e he
        have := h4 (revive e) (by rw [← List.map_drop]; exact List.mem_map_of_mem he)
        simpa using this

/-! ## findEntry -/

theorem findEntry_some {kids : List Entry} {n : Bytes} {e : Entry}
    (h : findEntry kids n = some e) : e ∈ kids ∧ e.name = n := by
  unfold findEntry at h
  exact ⟨List.mem_of_find?_eq_some h, by simpa using List.find?_some h⟩

theorem findEntry_none {kids : List Entry} {n : Bytes} :
    findEntry kids n = none ↔ ∀ e ∈ kids, e.name ≠ n := by
  simp [findEntry]

theorem findEntry_mem {kids : List Entry}
    (hs : kids.Pairwise (fun a b => LexLt a.name b.name)) {e : Entry} (h : e ∈ kids) :
    findEntry kids e.name = some e := by
  induction kids with
  | nil => simp at h
  | cons x xs ih =>
    rw [List.pairwise_cons] at hs
    rcases List.mem_cons.1 h with h | h
    · subst h; simp [findEntry]
    · have hne : x.name ≠ e.name := fun he => by
        have := hs.1 e h; rw [he] at this; exact LexLt.irrefl _ this
      have := ih hs.2 h
      simp only [findEntry, List.find?_cons] at this ⊢
      simp [hne, this]

theorem pairwise_insertAt {kids : List Entry} {i : Nat} {e : Entry}
    (hs : kids.Pairwise (fun a b => LexLt a.name b.name))
    (h1 : ∀ x ∈ kids.take i, LexLt x.name e.name) (h2 : ∀ x ∈ kids.drop i, LexLt e.name x.name) :
    (insertAt kids i e).Pairwise (fun a b => LexLt a.name b.name) := by
  unfold insertAt
  rw [List.pairwise_append]
  refine ⟨hs.take, ?_, ?_⟩
  · rw [List.pairwise_cons]; exact ⟨h2, hs.drop⟩
  · intro a ha b hb
    rcases List.mem_cons.1 hb with hb | hb
    · subst hb; exact h1 a ha
    · exact (h1 a ha).trans (h2 b hb)

theorem mem_insertAt {kids : List Entry} {i : Nat} {e x : Entry} :
    x ∈ insertAt kids i e ↔ x = e ∨ x ∈ kids := by
  unfold insertAt
  rw [List.mem_append, List.mem_cons]
  conv => rhs; rw [← List.take_append_drop i kids, List.mem_append]
  grind

theorem findEntry_insertAt {kids : List Entry} {i : Nat} {e : Entry} (c : Bytes)
    (h1 : ∀ x ∈ kids.take i, LexLt x.name e.name) :
    findEntry (insertAt kids i e) c = if c = e.name then some e else findEntry kids c := by
  unfold insertAt findEntry
  rw [List.find?_append, List.find?_cons]
  conv => rhs; rw [← List.take_append_drop i kids, List.find?_append]
  by_cases hc : c = e.name
  · subst hc
    have : (kids.take i).find? (fun x => x.name = e.name) = none := by
      rw [List.find?_eq_none]
      intro x hx
      have := h1 x hx
      intro he
      simp at he
      rw [he] at this; exact LexLt.irrefl _ this
    simp [this]
  · have hc' : ¬ e.name = c := fun h => hc h.symm
    simp [hc, hc']

theorem pairwise_set {kids : List Entry} {i : Nat} {e x : Entry} (h : kids[i]? = some x)
    (hn : e.name = x.name) (hs : kids.Pairwise (fun a b => LexLt a.name b.name)) :
    (kids.set i e).Pairwise (fun a b => LexLt a.name b.name) := by
  have : (kids.set i e).map Entry.name = kids.map Entry.name := by
    rw [List.map_set, hn]
    apply List.ext_getElem?
    intro j
    rw [List.getElem?_set]
    split
    · rename_i hij; subst hij; simp [h]
      have := List.getElem?_eq_some_iff.1 h
      exact this.1
    · rfl
  have h1 : (kids.map Entry.name).Pairwise LexLt := by rwa [List.pairwise_map]
  rw [← this, List.pairwise_map] at h1
  exact h1

theorem findEntry_set {kids : List Entry} {i : Nat} {e x : Entry} (h : kids[i]? = some x)
    (hn : e.name = x.name) (hs : kids.Pairwise (fun a b => LexLt a.name b.name)) (c : Bytes) :
    findEntry (kids.set i e) c = if c = e.name then some e else findEntry kids c := by
  induction kids generalizing i with
  | nil => simp at h
  | cons y ys ih =>
    rw [List.pairwise_cons] at hs
    cases i with
    | zero =>
      simp at h; subst h
      simp only [List.set_cons_zero, findEntry, List.find?_cons]
      by_cases hc : c = e.name
      · subst hc; simp
      · have hc' : ¬ e.name = c := fun h => hc h.symm
        have hc2 : ¬ y.name = c := by rw [← hn]; exact hc'
        simp only [hc, hc', hc2, decide_false, if_false]
    | succ i =>
      simp at h
      simp only [List.set_cons_succ, findEntry, List.find?_cons]
      have := ih h hs.2
      simp only [findEntry] at this
      rw [this]
      by_cases hc : c = e.name
      · subst hc
        have hx : x ∈ ys := List.mem_of_getElem? h
        have hne : y.name ≠ e.name := fun he => by
          have := hs.1 x hx; rw [he, hn] at this; exact LexLt.irrefl _ this
        simp [hne]
      · simp [hc]

theorem replaceEntry_name {kids : List Entry} {n : Bytes} {e : Entry} (h : e.name = n) :
    (replaceEntry kids n e).map Entry.name = kids.map Entry.name := by
  unfold replaceEntry
  rw [List.map_map]
  apply List.map_congr_left
  intro x _
  simp only [Function.comp]
  split
  · rename_i hx; rw [h, hx]
  · rfl

theorem pairwise_replace {kids : List Entry} {n : Bytes} {e : Entry} (h : e.name = n)
    (hs : kids.Pairwise (fun a b => LexLt a.name b.name)) :
    (replaceEntry kids n e).Pairwise (fun a b => LexLt a.name b.name) := by
  have h1 : (kids.map Entry.name).Pairwise LexLt := by rwa [List.pairwise_map]
  rw [← replaceEntry_name h, List.pairwise_map] at h1
  exact h1

theorem mem_replaceEntry {kids : List Entry} {n : Bytes} {e x : Entry}
    (h : x ∈ replaceEntry kids n e) : x = e ∨ x ∈ kids := by
  unfold replaceEntry at h
  obtain ⟨y, hy, hx⟩ := List.mem_map.1 h
  split at hx
  · exact .inl hx.symm
  · subst hx; exact .inr hy

theorem findEntry_replace {kids : List Entry} {n : Bytes} {e x : Entry}
    (hx : findEntry kids n = some x) (h : e.name = n) (c : Bytes) :
    findEntry (replaceEntry kids n e) c = if c = n then some e else findEntry kids c := by
  induction kids with
  | nil => simp [findEntry] at hx
  | cons y ys ih =>
    simp only [replaceEntry, List.map_cons, findEntry, List.find?_cons] at *
    by_cases hy : y.name = n
    · simp only [hy, if_true, h]
      by_cases hc : c = n
      · subst hc; simp
      · have hc' : ¬ n = c := fun e => hc e.symm
        simp only [hc, hc', decide_false, if_false]
        clear ih hx
        induction ys with
        | nil => rfl
        | cons z zs ihz =>
          simp only [List.map_cons, List.find?_cons]
          by_cases hz : z.name = n
          · simp [hz, h, hc', ihz]
          · simp only [hz, if_false]
            split
            · rfl
            · exact ihz
    · simp only [hy, decide_false, if_false] at hx ⊢
      by_cases hc : c = n
      · subst hc; simp [hy]; exact (by simpa using ih hx)
      · simp only [hc, if_false] at ih ⊢
        rw [ih hx]

/-! ## Insertion of folders -/

theorem nodeAt_nil_kids (q : List Bytes) :
    nodeAt [] q = if q = [] then some .folder else none := by
  cases q <;> simp [nodeAt, findEntry]

/-- A file blocks a path if a non-empty prefix of it designates a file.
Part of the specification, models no code. -/
def Blocked (kids : List Entry) (path : List Bytes) : Prop :=
  ∃ q info, q <+: path ∧ nodeAt kids q = some (.file info)

theorem insertFolder_spec (path : List Bytes) : ∀ (kids : List Entry),
    SortedTree kids → LiveTree kids →
    ∃ kids' b, insertFolder kids path = .ok (kids', b) ∧ SortedTree kids' ∧ LiveTree kids' ∧
      (b = true ↔ ¬ Blocked kids path) ∧
      (b = true → ∀ q, nodeAt kids' q = if q <+: path then some .folder else nodeAt kids q) ∧
      (b = false → ∀ q, nodeAt kids' q = nodeAt kids q) ∧
      ((∀ c ∈ path, Ascii c) → AsciiTree kids → AsciiTree kids') := by
  induction path with
  | nil =>
    intro kids hs hl
    refine ⟨kids, true, rfl, hs, hl, ?_, ?_, by simp, fun _ h => h⟩
    · simp only [true_iff]
      rintro ⟨q, info, h1, h2⟩
      rw [List.prefix_nil] at h1
      subst h1; simp [nodeAt] at h2
    · intro _ q
      simp only [List.prefix_nil]
      split
      · rename_i h; subst h; rfl
      · rfl
  | cons name rest ih =>
    intro kids hs hl
    rcases searchInsert_spec name hs.sorted (fun e he => hl.nameOk he) with
      ⟨i, e, h1, h2, h3⟩ | ⟨i, h1, h2, h3, h4⟩
    · have hmem : e ∈ kids := List.mem_of_getElem? h2
      have hfind : findEntry kids name = some e := h3 ▸ findEntry_mem hs.sorted hmem
      unfold insertFolder
      rw [h1]
      simp only [h2]
      cases e with
      | file n info =>
        simp only [Entry.name] at h3
        refine ⟨kids, false, rfl, hs, hl, ?_, by simp, by simp, fun _ h => h⟩
        simp only [Bool.false_eq_true, false_iff, Classical.not_not]
        exact ⟨[name], info, by simp, by simp [nodeAt, hfind]⟩
      | folder n fr ch =>
        simp only [Entry.name] at h3
        subst h3
        obtain ⟨hfr, hlch⟩ := hl.sub hmem
        subst hfr
        obtain ⟨ch', b, g1, g2, g3, g4, g5, g6, g7⟩ := ih ch (hs.sub hmem) hlch
        simp only [g1, Res.bind_ok, Res.pure_eq]
        have hset := findEntry_set (e := .folder n false ch') h2 rfl hs.sorted
        simp only [Entry.name] at hset
        have hnode : ∀ q, nodeAt (kids.set i (.folder n false ch')) (n :: q) = nodeAt ch' q := by
          intro q; simp [nodeAt, hset]
        have hnode0 : ∀ q, nodeAt kids (n :: q) = nodeAt ch q := by
          intro q; simp [nodeAt, hfind]
        have hother : ∀ c q, c ≠ n →
            nodeAt (kids.set i (.folder n false ch')) (c :: q) = nodeAt kids (c :: q) := by
          intro c q hc; simp [nodeAt, hset, hc]
        refine ⟨_, b, rfl, ?_, ?_, ?_, ?_, ?_, ?_⟩
        · refine ⟨_, pairwise_set h2 rfl hs.sorted, ?_⟩
          intro n' fr' ch'' hm
          rcases List.mem_or_eq_of_mem_set hm with hm | hm
          · exact hs.sub hm
          · cases hm; exact g2
        · refine LiveTree.mk' ?_
          intro n' fr' ch'' hm
          rcases List.mem_or_eq_of_mem_set hm with hm | hm
          · exact hl.sub hm
          · cases hm; exact ⟨rfl, g3⟩
        · rw [g4]
          apply not_congr
          constructor
          · rintro ⟨q, info, e1, e2⟩
            exact ⟨n :: q, info, by simpa using e1, by rw [hnode0]; exact e2⟩
          · rintro ⟨q, info, e1, e2⟩
            cases q with
            | nil => simp [nodeAt] at e2
            | cons c q =>
              rw [List.cons_prefix_cons] at e1
              obtain ⟨e1, e1'⟩ := e1
              subst e1
              rw [hnode0] at e2
              exact ⟨q, info, e1', e2⟩
        · intro hb q
          cases q with
          | nil => simp [nodeAt]
          | cons c q =>
            by_cases hc : c = n
            · subst hc
              rw [hnode, g5 hb, hnode0]
              simp [List.cons_prefix_cons]
            · rw [hother c q hc]
              simp [List.cons_prefix_cons, hc]
        · intro hb q
          cases q with
          | nil => simp [nodeAt]
          | cons c q =>
            by_cases hc : c = n
            · subst hc
              rw [hnode, g6 hb, hnode0]
            · exact hother c q hc
        · intro ha hat
          have hat' := g7 (fun c hc => ha c (by simp [hc])) (hat.sub hmem)
          refine ⟨_, ?_, ?_⟩
          · intro x hx
            rcases List.mem_or_eq_of_mem_set hx with hx | hx
            · exact hat.names hx
            · subst hx; exact ha n (by simp)
          · intro n' fr' ch'' hm
            rcases List.mem_or_eq_of_mem_set hm with hm | hm
            · exact hat.sub hm
            · cases hm; exact hat'
    · have hnone : findEntry kids name = none := by
        rw [findEntry_none]
        intro e he heq
        rw [← List.take_append_drop i kids, List.mem_append] at he
        rcases he with he | he
        · have := h3 e he; rw [heq] at this; exact LexLt.irrefl _ this
        · have := h4 e he; rw [heq] at this; exact LexLt.irrefl _ this
      unfold insertFolder
      rw [h1]
      simp only
      obtain ⟨ch', b, g1, g2, g3, g4, g5, g6, g7⟩ := ih [] SortedTree.nil LiveTree.nil
      simp only [g1, Res.bind_ok, Res.pure_eq]
      have hb : b = true := by
        rw [g4]
        rintro ⟨q, info, _, e2⟩
        rw [nodeAt_nil_kids] at e2
        split at e2 <;> simp at e2
      have hins := findEntry_insertAt (kids := kids) (i := i) (e := .folder name false ch')
        (h1 := h3)
      simp only [Entry.name] at hins
      refine ⟨_, b, rfl, ?_, ?_, ?_, ?_, ?_, ?_⟩
      · refine ⟨_, pairwise_insertAt hs.sorted h3 h4, ?_⟩
        intro n' fr' ch'' hm
        rcases mem_insertAt.1 hm with hm | hm
        · cases hm; exact g2
        · exact hs.sub hm
      · refine LiveTree.mk' ?_
        intro n' fr' ch'' hm
        rcases mem_insertAt.1 hm with hm | hm
        · cases hm; exact ⟨rfl, g3⟩
        · exact hl.sub hm
      · simp only [hb, true_iff]
        rintro ⟨q, info, e1, e2⟩
        cases q with
        | nil => simp [nodeAt] at e2
        | cons c q =>
          rw [List.cons_prefix_cons] at e1
          obtain ⟨e1, _⟩ := e1
          subst e1
          simp [nodeAt, hnone] at e2
      · intro _ q
        cases q with
        | nil => simp [nodeAt]
        | cons c q =>
          by_cases hc : c = name
          · subst hc
            have : nodeAt (insertAt kids i (.folder c false ch')) (c :: q) = nodeAt ch' q := by
              simp [nodeAt, hins]
            rw [this, g5 hb, nodeAt_nil_kids]
            have hn : nodeAt kids (c :: q) = none := by simp [nodeAt, hnone]
            rw [hn]
            simp only [List.cons_prefix_cons, true_and]
            by_cases hq : q = []
            · subst hq; simp
            · simp [hq]
          · have : nodeAt (insertAt kids i (.folder name false ch')) (c :: q) =
                nodeAt kids (c :: q) := by
              simp [nodeAt, hins, hc]
            rw [this]
            simp [List.cons_prefix_cons, hc]
      · intro hb'; rw [hb] at hb'; cases hb'
      · intro ha hat
        have hat' := g7 (fun c hc => ha c (by simp [hc])) AsciiTree.nil
        refine ⟨_, ?_, ?_⟩
        · intro x hx
          rcases mem_insertAt.1 hx with hx | hx
          · subst hx; exact ha name (by simp)
          · exact hat.names hx
        · intro n' fr' ch'' hm
          rcases mem_insertAt.1 hm with hm | hm
          · cases hm; exact hat'
          · exact hat.sub hm

/-! ## Insertion of files -/

theorem insertFile_spec (kids : List Entry) (name : Bytes) (info : FileInfo)
    (hs : SortedTree kids) (hl : LiveTree kids) (hnf : nodeAt kids [name] ≠ some .folder) :
    ∃ kids', insertFile kids name info = .ok kids' ∧ SortedTree kids' ∧ LiveTree kids' ∧
      (∀ q, nodeAt kids' q = if q = [name] then some (.file info) else nodeAt kids q) ∧
      (Ascii name → AsciiTree kids → AsciiTree kids') := by
  rcases searchInsert_spec name hs.sorted (fun e he => hl.nameOk he) with
    ⟨i, e, h1, h2, h3⟩ | ⟨i, h1, h2, h3, h4⟩
  · have hmem : e ∈ kids := List.mem_of_getElem? h2
    have hfind : findEntry kids name = some e := h3 ▸ findEntry_mem hs.sorted hmem
    unfold insertFile
    rw [h1]
    simp only [h2]
    cases e with
    | folder n fr ch => exact absurd (by simp [nodeAt, hfind]) hnf
    | file n old =>
      simp only [Entry.name] at h3
      subst h3
      have hset := findEntry_set (e := .file n info) h2 rfl hs.sorted
      simp only [Entry.name] at hset
      refine ⟨_, rfl, ?_, ?_, ?_, ?_⟩
      · refine ⟨_, pairwise_set h2 rfl hs.sorted, ?_⟩
        intro n' fr' ch'' hm
        rcases List.mem_or_eq_of_mem_set hm with hm | hm
        · exact hs.sub hm
        · cases hm
      · refine LiveTree.mk' ?_
        intro n' fr' ch'' hm
        rcases List.mem_or_eq_of_mem_set hm with hm | hm
        · exact hl.sub hm
        · cases hm
      · intro q
        cases q with
        | nil => simp [nodeAt]
        | cons c q =>
          by_cases hc : c = n
          · subst hc
            simp only [nodeAt, hset, if_true, hfind]
            by_cases hq : q = []
            · simp [hq]
            · simp [hq]
          · simp [nodeAt, hset, hc]
      · intro ha hat
        refine ⟨_, ?_, ?_⟩
        · intro x hx
          rcases List.mem_or_eq_of_mem_set hx with hx | hx
          · exact hat.names hx
          · subst hx; exact ha
        · intro n' fr' ch'' hm
          rcases List.mem_or_eq_of_mem_set hm with hm | hm
          · exact hat.sub hm
          · cases hm
  · have hnone : findEntry kids name = none := by
      rw [findEntry_none]
      intro e he heq
      rw [← List.take_append_drop i kids, List.mem_append] at he
      rcases he with he | he
      · have := h3 e he; rw [heq] at this; exact LexLt.irrefl _ this
      · have := h4 e he; rw [heq] at this; exact LexLt.irrefl _ this
    unfold insertFile
    rw [h1]
    simp only
    have hins := findEntry_insertAt (kids := kids) (i := i) (e := .file name info) (h1 := h3)
    simp only [Entry.name] at hins
    refine ⟨_, rfl, ?_, ?_, ?_, ?_⟩
    · refine ⟨_, pairwise_insertAt hs.sorted h3 h4, ?_⟩
      intro n' fr' ch'' hm
      rcases mem_insertAt.1 hm with hm | hm
      · cases hm
      · exact hs.sub hm
    · refine LiveTree.mk' ?_
      intro n' fr' ch'' hm
      rcases mem_insertAt.1 hm with hm | hm
      · cases hm
      · exact hl.sub hm
    · intro q
      cases q with
      | nil => simp [nodeAt]
      | cons c q =>
        by_cases hc : c = name
        · subst hc
          simp only [nodeAt, hins, if_true, hnone]
          by_cases hq : q = []
          · simp [hq]
          · simp [hq]
        · simp [nodeAt, hins, hc]
    · intro ha hat
      refine ⟨_, ?_, ?_⟩
      · intro x hx
        rcases mem_insertAt.1 hx with hx | hx
        · subst hx; exact ha
        · exact hat.names hx
      · intro n' fr' ch'' hm
        rcases mem_insertAt.1 hm with hm | hm
        · cases hm
        · exact hat.sub hm

theorem insertFileAt_spec (cur : List Bytes) (name : Bytes) (info : FileInfo) :
    ∀ (kids : List Entry), SortedTree kids → LiveTree kids →
    nodeAt kids cur = some .folder → nodeAt kids (cur ++ [name]) ≠ some .folder →
    ∃ kids', insertFileAt kids cur name info = .ok kids' ∧ SortedTree kids' ∧ LiveTree kids' ∧
      (∀ q, nodeAt kids' q = if q = cur ++ [name] then some (.file info) else nodeAt kids q) ∧
      (Ascii name → AsciiTree kids → AsciiTree kids') := by
  induction cur with
  | nil =>
    intro kids hs hl _ h2
    exact insertFile_spec kids name info hs hl h2
  | cons c cs ih =>
    intro kids hs hl h1 h2
    unfold insertFileAt
    simp only [nodeAt] at h1
    simp only [List.cons_append, nodeAt] at h2
    cases hf : findEntry kids c with
    | none => simp [hf] at h1
    | some e =>
      obtain ⟨hmem, hname⟩ := findEntry_some hf
      cases e with
      | file n i =>
        simp only [hf] at h1
        split at h1 <;> simp at h1
      | folder n fr ch =>
        simp only [Entry.name] at hname
        subst hname
        simp only [hf] at h1 h2
        obtain ⟨hfr, hlch⟩ := hl.sub hmem
        subst hfr
        obtain ⟨ch', g1, g2, g3, g4, g5⟩ := ih ch (hs.sub hmem) hlch h1 h2
        simp only [g1, Res.bind_ok, Res.pure_eq]
        have hrep := findEntry_replace (e := .folder n false ch') hf rfl
        refine ⟨_, rfl, ?_, ?_, ?_, ?_⟩
        · refine ⟨_, pairwise_replace rfl hs.sorted, ?_⟩
          intro n' fr' ch'' hm
          rcases mem_replaceEntry hm with hm | hm
          · cases hm; exact g2
          · exact hs.sub hm
        · refine LiveTree.mk' ?_
          intro n' fr' ch'' hm
          rcases mem_replaceEntry hm with hm | hm
          · cases hm; exact ⟨rfl, g3⟩
          · exact hl.sub hm
        · intro q
          cases q with
          | nil => simp [nodeAt]
          | cons d q =>
            by_cases hc : d = n
            · subst hc
              simp only [nodeAt, hrep, if_true, hf, List.cons_append, List.cons.injEq, true_and]
              exact g4 q
            · simp [nodeAt, hrep, hc]
        · intro ha hat
          have hat' := g5 ha (hat.sub hmem)
          refine ⟨_, ?_, ?_⟩
          · intro x hx
            rcases mem_replaceEntry hx with hx | hx
            · subst hx; have := hat.names hmem; exact this
            · exact hat.names hx
          · intro n' fr' ch'' hm
            rcases mem_replaceEntry hm with hm | hm
            · cases hm; exact hat'
            · exact hat.sub hm

/-! ## Lookups -/

/-- The byte that orders like the signed character. Part of the specification, models no code. -/
def skey (c : Nat) : Nat := if c < 128 then c + 128 else c - 128

theorem pvStrcmp_neg' (a b : Bytes) (ha : ∀ c ∈ a, c < 256) (hb : ∀ c ∈ b, c < 256) :
    pvStrcmp a b < 0 ↔ LexLt (a.map skey) (b.map skey) := by
  induction a generalizing b with
  | nil => cases b <;> simp [pvStrcmp, LexLt]
  | cons x xs ih =>
    cases b with
    | nil => simp [pvStrcmp, LexLt]
    | cons y ys =>
      have hx := ha x (by simp)
      have hy := hb y (by simp)
      have ih' := ih ys (fun c hc => ha c (by simp [hc])) (fun c hc => hb c (by simp [hc]))
      by_cases h : x = y
      · subst h; simp [pvStrcmp, ih', LexLt]
      · have hne : schar x - schar y ≠ 0 := by unfold schar; split <;> split <;> omega
        have hk : skey x ≠ skey y := by unfold skey; split <;> split <;> omega
        have hd : schar x - schar y < 0 ↔ skey x < skey y := by
          simp only [schar, skey]
          by_cases h1 : x < 128 <;> by_cases h2 : y < 128 <;> simp only [h1, h2, if_true, if_false] <;> omega
        simp only [pvStrcmp, LexLt, List.map_cons]
        rw [if_pos hne]
        simp only [hk, false_and, or_false]
        exact hd

theorem skey_ascii_lex {a b : Bytes} (ha : Ascii a) (hb : Ascii b) (h : LexLt a b) :
    LexLt (a.map skey) (b.map skey) := by
  rw [← pvStrcmp_neg' a b (fun c hc => by have := ha c hc; omega)
    (fun c hc => by have := hb c hc; omega)]
  exact (pvStrcmp_neg a b ha hb).2 h

theorem searchLookup_spec {kids : List Entry} (value : Bytes)
    (hs : kids.Pairwise (fun a b => LexLt a.name b.name))
    (hl : ∀ e ∈ kids, e.nameOk = true) (ha : ∀ e ∈ kids, Ascii e.name)
    (hv : ∀ c ∈ value, c < 256) (hne : kids ≠ []) :
    (∃ i e, searchLookup value kids = .ok (some i) ∧ kids[i]? = some e ∧
      findEntry kids value = some e) ∨
    (searchLookup value kids = .ok none ∧ findEntry kids value = none) := by
  unfold searchLookup
  have h0 : 0 < kids.length := List.length_pos_iff.2 hne
  let c : Nat → Int := fun i => match kids[i]? with
    | some e => pvStrcmp value e.name
    | none => 0
  have hci : ∀ i (h : i < kids.length), c i = pvStrcmp value kids[i].name := fun i h => by
    simp [c, List.getElem?_eq_getElem h]
  have hb : ∀ i (h : i < kids.length), ∀ c ∈ kids[i].name, c < 256 := fun i h c hc => by
    have := ha _ (List.getElem_mem h) c hc; omega
  have hcmp : ∀ i, 0 ≤ i → i ≤ kids.length - 1 → cmpLookup value kids i = some (c i) := by
    intro i _ hi
    have hi' : i < kids.length := by omega
    simp [cmpLookup, c, List.getElem?_eq_getElem hi', hl _ (List.getElem_mem hi')]
  have hd : Descending c 0 (kids.length - 1) := by
    intro i j _ hij hj
    have hj' : j < kids.length := by omega
    have hi' : i < kids.length := by omega
    rw [hci i hi', hci j hj']
    by_cases he : i = j
    · subst he; exact ⟨id, id⟩
    · have hlt0 : LexLt kids[i].name kids[j].name :=
        (List.pairwise_iff_getElem.1 hs) i j hi' hj' (by omega)
      have hlt := skey_ascii_lex (ha _ (List.getElem_mem hi')) (ha _ (List.getElem_mem hj')) hlt0
      have ni := pvStrcmp_neg' value _ hv (hb i hi')
      have nj := pvStrcmp_neg' value _ hv (hb j hj')
      have zi := pvStrcmp_eq_zero value _ hv (hb i hi')
      have zj := pvStrcmp_eq_zero value _ hv (hb j hj')
      have key : 0 ≤ pvStrcmp value kids[j].name → 0 ≤ pvStrcmp value kids[i].name := by
        intro h
        have : ¬ pvStrcmp value kids[i].name < 0 := fun hx => by
          have := nj.2 ((ni.1 hx).trans hlt); omega
        omega
      refine ⟨key, fun h => ?_⟩
      have h1 := key (by omega)
      have : pvStrcmp value kids[i].name ≠ 0 := fun hz => by
        have hv' := zi.1 hz
        have : pvStrcmp value kids[j].name < 0 := by
          rw [nj]; rw [hv']; exact hlt
        omega
      omega
  rcases bsearch_spec _ c 0 (kids.length - 1) (by omega) hcmp hd with
    ⟨i, h1, _, h3, h4⟩ | ⟨h1, h2⟩
  · left
    have hi' : i < kids.length := by omega
    refine ⟨i, kids[i], h1, List.getElem?_eq_getElem hi', ?_⟩
    rw [hci i hi', pvStrcmp_eq_zero value _ hv (hb i hi')] at h4
    rw [h4]; exact findEntry_mem hs (List.getElem_mem hi')
  · right
    refine ⟨h1, ?_⟩
    rw [findEntry_none]
    intro e he heq
    obtain ⟨i, hi, rfl⟩ := List.mem_iff_getElem.1 he
    apply h2 i (by omega) (by omega)
    rw [hci i hi, pvStrcmp_eq_zero value _ hv (hb i hi)]
    exact heq.symm

/-- The file a component list designates. Part of the specification, models no code. -/
def fileAt (kids : List Entry) (q : List Bytes) : Option FileInfo :=
  match nodeAt kids q with
  | some (.file i) => some i
  | _ => none

/-- The children of the folder a component list designates. Part of the specification, models no code. -/
def childrenAt (kids : List Entry) : List Bytes → Option (List Entry)
  | [] => some kids
  | c :: cs =>
    match findEntry kids c with
    | some (.folder _ _ ch) => childrenAt ch cs
    | _ => none

theorem folderGetFile_eq (q : List Bytes) : ∀ kids, SortedTree kids → LiveTree kids →
    AsciiTree kids → (∀ n ∈ q, ∀ c ∈ n, c < 256) →
    folderGetFile kids q = .ok (fileAt kids q) := by
  induction q with
  | nil => intro kids _ _ _ _; simp [folderGetFile, fileAt, nodeAt]
  | cons c cs ih =>
    intro kids hs hl ha hq
    unfold folderGetFile
    by_cases h0 : kids.length = 0
    · have : kids = [] := List.length_eq_zero_iff.1 h0
      subst this
      simp [fileAt, nodeAt, findEntry]
    · rw [if_neg h0]
      rcases searchLookup_spec c hs.sorted (fun e he => hl.nameOk he) (fun e he => ha.names he)
        (hq c (by simp)) (by intro e; simp [e] at h0) with ⟨i, e, h1, h2, h3⟩ | ⟨h1, h2⟩
      · rw [h1]; simp only [h2]
        cases e with
        | file n info =>
          simp only [fileAt, nodeAt, h3]
          by_cases hc : cs = [] <;> simp [hc]
        | folder n fr ch =>
          have hm := (findEntry_some h3).1
          simp only
          rw [ih ch (hs.sub hm) (hl.sub hm).2 (ha.sub hm) (fun n hn => hq n (by simp [hn]))]
          simp only [fileAt, nodeAt, h3]
          by_cases hc : cs = []
          · subst hc; simp [nodeAt]
          · simp [hc]
      · rw [h1]; simp [fileAt, nodeAt, h2]

theorem folderGetChildren_eq (q : List Bytes) : ∀ kids, SortedTree kids → LiveTree kids →
    AsciiTree kids → (∀ n ∈ q, ∀ c ∈ n, c < 256) →
    ∃ r, folderGetChildren kids q = .ok r ∧
      (∀ ch, childrenAt kids q = some ch → r = some ch) ∧
      (childrenAt kids q = none → r = none ∨
        (r = some [] ∧ ∃ p, p <+: q ∧ p ≠ q ∧ childrenAt kids p = some [])) := by
  induction q with
  | nil => intro kids _ _ _ _; simp [folderGetChildren, childrenAt]
  | cons c cs ih =>
    intro kids hs hl ha hq
    unfold folderGetChildren
    by_cases h0 : kids.length = 0
    · have : kids = [] := List.length_eq_zero_iff.1 h0
      subst this
      refine ⟨some [], by simp, ?_, ?_⟩
      · simp [childrenAt, findEntry]
      · intro _; right; exact ⟨rfl, [], by simp, by simp, rfl⟩
    · rw [if_neg h0]
      rcases searchLookup_spec c hs.sorted (fun e he => hl.nameOk he) (fun e he => ha.names he)
        (hq c (by simp)) (by intro e; simp [e] at h0) with ⟨i, e, h1, h2, h3⟩ | ⟨h1, h2⟩
      · rw [h1]; simp only [h2]
        cases e with
        | file n info => exact ⟨none, rfl, by simp [childrenAt, h3]⟩
        | folder n fr ch =>
          have hm := (findEntry_some h3).1
          simp only
          obtain ⟨r, g1, g2, g3⟩ := ih ch (hs.sub hm) (hl.sub hm).2 (ha.sub hm)
            (fun n hn => hq n (by simp [hn]))
          refine ⟨r, g1, ?_, ?_⟩
          · intro ch' h; apply g2; simpa [childrenAt, h3] using h
          · intro h
            rcases g3 (by simpa [childrenAt, h3] using h) with h | ⟨h, p, p1, p2, p3⟩
            · exact .inl h
            · right
              exact ⟨h, c :: p, by simp [p1], by simp [p2], by simp [childrenAt, h3, p3]⟩
      · rw [h1]; exact ⟨none, rfl, by simp [childrenAt, h2]⟩

end Dyna
