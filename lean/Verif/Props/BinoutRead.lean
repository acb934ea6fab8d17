import Verif.BinoutReadLemmas
import Verif.Props.Binout
/-!
# Properties of reading binout variables (C18-C20)
-/

namespace Dyna

/-! ## The directory of a well formed set of files -/

/-- A folder of a set of files: the root or on the way to the target of a CD record. -/
def IsDir (files : List SrcFile) (q : List Bytes) : Prop :=
  q = [] ∨ ∃ p ∈ allFolders files, q <+: p

/-- Something exists under the path: a folder or a variable. -/
def Present (files : List SrcFile) (q : List Bytes) : Prop :=
  IsDir files q ∨ lastVar (allVars files) q ≠ none

theorem fileOps_folders (w : Header) (fi : Nat) (rs : List WRec) : ∀ (pos : Nat)
    (cur : List Bytes) (p : List Bytes), p ∈ foldersOf cur rs →
    DirOp.cd p ∈ fileOps w fi pos cur rs := by
  induction rs with
  | nil => intro _ _ p h; simp [foldersOf] at h
  | cons r rs ih =>
    intro pos cur p h
    cases r with
    | cd q =>
      simp only [foldersOf, List.mem_cons] at h
      simp only [fileOps, List.mem_cons]
      rcases h with rfl | h
      · exact .inl rfl
      · exact .inr (ih _ _ _ h)
    | data => simp only [foldersOf] at h; simp only [fileOps, List.mem_cons]; exact .inr (ih _ _ _ h)
    | other => simp only [foldersOf] at h; simp only [fileOps]; exact ih _ _ _ h

theorem allOps_folders (files : List SrcFile) : ∀ (i : Nat) (p : List Bytes),
    p ∈ allFolders files → DirOp.cd p ∈ allOps i files := by
  induction files with
  | nil => intro _ p h; simp [allFolders] at h
  | cons s t ih =>
    intro i p h
    simp only [allFolders, List.flatMap_cons, List.mem_append] at h
    simp only [allOps, List.mem_append]
    rcases h with h | h
    · exact .inl (fileOps_folders _ _ _ _ _ _ h)
    · exact .inr (ih _ _ h)

theorem isDir_iff (files : List SrcFile) (q : List Bytes) :
    IsDir files q ↔ IsFolder (allOps 0 files) q := by
  unfold IsDir IsFolder
  constructor
  · rintro (h | ⟨p, h1, h2⟩)
    · exact .inl h
    · exact .inr ⟨p, allOps_folders files 0 p h1, h2⟩
  · rintro (h | ⟨p, h1, h2⟩)
    · exact .inl h
    · exact .inr ⟨p, cds_allOps files 0 p h1, h2⟩

/-- What an opened directory knows about a set of files. -/
structure TreeOf (files : List SrcFile) (kids : List Entry) : Prop where
  sorted : SortedTree kids
  live : LiveTree kids
  ascii : AsciiTree kids
  dir : ∀ q, IsDir files q → nodeAt kids q = some .folder
  var : ∀ q ty pl, lastVar (allVars files) q = some (ty, pl) → ∃ i, nodeAt kids q = some (.file i) ∧
    i.varType = ty ∧ i.size = pl.length ∧
    (i.size ≠ 0 → readInfo (files.map (fun s => some s.content)) i = .ok pl)
  missing : ∀ q, ¬ Present files q → nodeAt kids q = none

theorem treeOf_represents {files : List SrcFile} (h : GoodSet files) {kids : List Entry}
    (hr : Represents (allOps 0 files) kids) : TreeOf files kids where
  sorted := hr.sorted
  live := hr.live
  ascii := hr.ascii (asciiOps_allOps files 0 h.ok)
  dir := by
    intro q hq
    rw [isDir_iff] at hq
    apply hr.folder q _ hq
    rw [lastWrite_none]
    intro w hw he
    subst he
    exact noClash_allOps files h w hw hq
  var := by
    intro q ty pl hq
    have hw := writesFrom_allOps (files.map SrcFile.content) files 0 [] h.ok (by simp)
    have hd := lastWrite_describe _ _ _ hw.1 q
    rw [hq] at hd
    cases hl : lastWrite (allOps 0 files) q with
    | none => rw [hl] at hd; simp at hd
    | some i =>
      rw [hl] at hd
      simp only [Option.map_some, Option.some.injEq] at hd
      obtain ⟨c, c1, c2⟩ := hw.2 _ (lastWrite_some_mem hl)
      simp only at c1 c2
      rw [List.getElem?_map] at c1
      cases hs : files[i.fileIndex]? with
      | none => rw [hs] at c1; simp at c1
      | some s =>
        rw [hs] at c1; simp at c1
        have hd2 : (files.map SrcFile.content).getD i.fileIndex [] = s.content := by
          simp [List.getD, hs]
        simp only [describe, hd2, Prod.mk.injEq] at hd
        have hsz := (h.ok s (List.mem_of_getElem? hs)).size
        have hsize : i.size = pl.length := by
          rw [← hd.2, List.length_take, List.length_drop, c1]; omega
        refine ⟨i, hr.file q i hl, hd.1, hsize, ?_⟩
        intro h0
        unfold readInfo
        rw [List.getElem?_map, hs]
        simp only [Option.map_some]
        rw [c1] at hsz
        rw [if_pos (by omega)]
        unfold freadObj
        rw [if_neg h0, if_pos (by rw [c1]; exact c2)]
        simp only
        rw [hd.2]
  missing := by
    intro q hq
    unfold Present at hq
    simp only [not_or, not_not] at hq
    have hw := writesFrom_allOps (files.map SrcFile.content) files 0 [] h.ok (by simp)
    have hd := lastWrite_describe _ _ _ hw.1 q
    rw [hq.2] at hd
    simp only [Option.map_eq_none_iff] at hd
    exact hr.missing q hd (fun hf => hq.1 ((isDir_iff files q).2 hf))

/-! ## C18 -/

/-- Specification: the types that a variable can be read as (the typed functions of
`/repo/src/binout_read.c:374-592` and the numbers of `/repo/src/binout_defines.h:40-49`), with
the number of bytes of a value in C. -/
inductive TypeWidth : Nat → Nat → Prop
  | int8 : TypeWidth 1 1
  | int16 : TypeWidth 2 2
  | int32 : TypeWidth 3 4
  | int64 : TypeWidth 4 8
  | uint8 : TypeWidth 5 1
  | uint16 : TypeWidth 6 2
  | uint32 : TypeWidth 7 4
  | uint64 : TypeWidth 8 8
  | float32 : TypeWidth 9 4
  | float64 : TypeWidth 10 8

theorem TypeWidth.size {ty w : Nat} (h : TypeWidth ty w) : typeSize ty = w := by
  cases h <;> rfl

theorem read_good (files : List SrcFile) (h : GoodSet files) (hne : files ≠ []) :
    ∃ n, ∀ fuel, n ≤ fuel → ∀ pattern, ∃ b,
      binoutOpen fuel pattern (files.map (fun s => (s.name, some s.content))) = .ok (some b) ∧
      ∀ (path : Bytes) (ty : Nat), path.head? = some SEP → 0 ∉ path → (∀ c ∈ path, c < 256) →
        binoutRead b path ty =
          match lastVar (allVars files) (components path) with
          | none => .err
          | some (ty', payload) =>
            if ty' = ty ∧ payload ≠ [] then .ok (payload, payload.length / typeSize ty) else .err := by
  obtain ⟨n, hn⟩ := open_good files h hne
  refine ⟨n, fun fuel hf pattern => ?_⟩
  obtain ⟨kids, k1, k2⟩ := hn fuel hf pattern
  refine ⟨_, k1, fun path ty habs h0 hb => ?_⟩
  obtain ⟨o, o1, o2, o3⟩ := open_lookup files h k2 path habs h0 hb
  have ht := treeOf_represents h k2
  have hg := getFile_of_represents k2 (asciiOps_allOps files 0 h.ok) (nonRoot_allOps files h.ok)
    path habs h0 hb (allOps_starts files 0 h.ok)
  unfold binoutRead
  cases hlv : lastVar (allVars files) (components path) with
  | none =>
    rw [hlv] at o2
    simp only [Option.map_eq_none_iff] at o2
    subst o2
    rw [o1]; rfl
  | some x =>
    obtain ⟨ty', pl⟩ := x
    obtain ⟨i, i1, i2, i3, i4⟩ := ht.var _ _ _ hlv
    have hw : lastWrite (allOps 0 files) (components path) = some i := by
      cases hl : lastWrite (allOps 0 files) (components path) with
      | none =>
        rw [o1, hl] at hg
        simp only [Res.ok.injEq] at hg
        rw [hg, hlv] at o2; simp at o2
      | some j =>
        have := k2.file _ _ hl
        rw [i1] at this
        simp at this; rw [this]
    rw [hg, hw]
    simp only [Res.bind_ok]
    by_cases hty : ty' = ty
    · subst hty
      rw [if_neg (by simp [i2])]
      by_cases hp : pl = []
      · rw [if_pos (by simp [i3, hp])]; simp [hp]
      · have hz : i.size ≠ 0 := by rw [i3]; simpa using hp
        rw [if_neg hz, i4 hz]
        simp [hp, i3]
    · rw [if_pos (by rw [i2]; exact hty)]; simp [hty]

/-- C18. Reading a path of an opened set of well formed files as values of `w` bytes of type `ty`
gives the payload of the last variable written under the path and its length divided by the
size of a value, if that variable has the type and is not empty. In all other cases (no such
variable, other type, no data) the result is an error. -/
theorem c18_read (files : List SrcFile) (h : GoodSet files) (hne : files ≠ []) :
    ∃ n, ∀ fuel, n ≤ fuel → ∀ pattern, ∃ b,
      binoutOpen fuel pattern (files.map (fun s => (s.name, some s.content))) = .ok (some b) ∧
      ∀ (path : Bytes) (ty w : Nat), TypeWidth ty w → path.head? = some SEP → 0 ∉ path →
        (∀ c ∈ path, c < 256) →
        binoutRead b path ty =
          match lastVar (allVars files) (components path) with
          | none => .err
          | some (ty', payload) =>
            if ty' = ty ∧ payload ≠ [] then .ok (payload, payload.length / w) else .err := by
  obtain ⟨n, hn⟩ := read_good files h hne
  refine ⟨n, fun fuel hf pattern => ?_⟩
  obtain ⟨b, hb, hr⟩ := hn fuel hf pattern
  refine ⟨b, hb, fun path ty w hw h1 h2 h3 => ?_⟩
  rw [hr path ty h1 h2 h3, hw.size]

/-! ## C20 -/

theorem numTimesteps_tree {kids : List Entry} (hs : SortedTree kids) (hl : LiveTree kids)
    (hast : AsciiTree kids) (path : Bytes) (habs : path.head? = some SEP) (h0 : 0 ∉ path)
    (hb : ∀ c ∈ path, c < 256) (ch : List Entry)
    (hc : childrenAt kids (components path) = some ch)
    (hfold : ∀ e ∈ ch, ∃ n fr k, e = .folder n fr k)
    (hd : ∀ e ∈ ch, e.name.head? = some 100 → IsStepName e.name) :
    numTimesteps kids path = .ok (some (ch.filter (fun e => isDString e.name)).length) := by
  have hne : path ≠ [] := by rintro rfl; simp at habs
  obtain ⟨pv, e1, _⟩ := pvNew_abs path habs
  have hsub : SortedTree ch := ((childrenAt_spec _ _ hs).1 ch hc).1
  unfold numTimesteps
  rw [e1]
  simp only [Res.bind_ok, ne_eq, habs, not_true, if_false]
  rw [pvElems_eq path h0 hne]
  simp only [Res.bind_ok]
  have hg : dirGetChildren kids (components path) = .ok (some ch) := by
    unfold dirGetChildren
    by_cases hk : kids.length = 0
    · have : kids = [] := List.length_eq_zero_iff.1 hk
      subst this
      cases hcc : components path with
      | nil => rw [hcc] at hc; simp [childrenAt] at hc; simp [hc]
      | cons c cs => rw [hcc] at hc; simp [childrenAt, findEntry] at hc
    · rw [if_neg hk]
      obtain ⟨r, r1, r2, _⟩ := folderGetChildren_eq (components path) kids hs hl hast
        (components_bytes path hb)
      rw [r1, r2 ch hc]
  rw [hg]
  simp only [Res.bind_ok]
  cases hch : ch with
  | nil => simp
  | cons e t =>
    obtain ⟨n, fr, k, rfl⟩ := hfold e (by rw [hch]; simp)
    simp only
    rw [← hch]
    obtain ⟨a, b, h1, h2, h3⟩ := steps_adjacent hsub.sorted hd
    by_cases hD : ch.filter (fun e => isDString e.name) = []
    · rw [hD, firstD_none]
      · rfl
      · intro x hx
        rw [List.filter_eq_nil_iff] at hD
        simpa using hD x hx
    · obtain ⟨r1, r2⟩ := steps_range hD h2 (fun x hx => (List.mem_filter.1 hx).2) h3
      rw [← h1] at r1 r2
      rw [r1]
      simp only [r2]
      have : 0 < (ch.filter (fun e => isDString e.name)).length := List.length_pos_iff.2 hD
      congr 2; omega

theorem nodeAt_append (p : List Bytes) : ∀ (kids ch : List Entry) (q : List Bytes),
    childrenAt kids p = some ch → nodeAt kids (p ++ q) = nodeAt ch q := by
  induction p with
  | nil => intro kids ch q h; simp [childrenAt] at h; subst h; rfl
  | cons c cs ih =>
    intro kids ch q h
    simp only [childrenAt] at h
    split at h
    · rename_i n fr k hf
      simp only [List.cons_append, nodeAt, hf]
      exact ih _ _ _ h
    · simp at h

theorem childrenAt_of_dir {files : List SrcFile} {kids : List Entry} (ht : TreeOf files kids)
    {q : List Bytes} (hq : IsDir files q) : ∃ ch, childrenAt kids q = some ch := by
  cases h : childrenAt kids q with
  | some ch => exact ⟨ch, rfl⟩
  | none => exact absurd (ht.dir q hq) ((childrenAt_spec q kids ht.sorted).2 h)

/-- A child of a folder of the tree: a folder or a variable of the files. -/
theorem child_cases {files : List SrcFile} {kids ch : List Entry} (ht : TreeOf files kids)
    {q : List Bytes} (hc : childrenAt kids q = some ch) {e : Entry} (he : e ∈ ch) :
    (IsDir files (q ++ [e.name]) ∧ ∃ n fr k, e = .folder n fr k) ∨
    (lastVar (allVars files) (q ++ [e.name]) ≠ none ∧ ∃ n i, e = .file n i) := by
  have hsub : SortedTree ch := ((childrenAt_spec _ _ ht.sorted).1 ch hc).1
  have hf := findEntry_mem hsub.sorted he
  have hn := nodeAt_append q kids ch [e.name] hc
  simp only [nodeAt, hf] at hn
  have hp : Present files (q ++ [e.name]) := by
    by_contra hnp
    rw [ht.missing _ hnp] at hn
    cases e <;> simp at hn
  rcases hp with hp | hp
  · left
    refine ⟨hp, ?_⟩
    rw [ht.dir _ hp] at hn
    cases e with
    | file n i => simp at hn
    | folder n fr k => exact ⟨n, fr, k, rfl⟩
  · right
    refine ⟨hp, ?_⟩
    obtain ⟨⟨ty, pl⟩, hpl⟩ := Option.ne_none_iff_exists'.1 hp
    obtain ⟨i, hi, _⟩ := ht.var _ _ _ hpl
    rw [hi] at hn
    cases e with
    | file n i => exact ⟨n, i, rfl⟩
    | folder n fr k => simp at hn

theorem childrenAt_snoc {ch : List Entry} {m : Bytes} {fr : Bool} {k : List Entry}
    (q : List Bytes) : ∀ (kids : List Entry), childrenAt kids q = some ch →
    findEntry ch m = some (.folder m fr k) → childrenAt kids (q ++ [m]) = some k := by
  induction q with
  | nil => intro kids hc hf; simp [childrenAt] at hc; subst hc; simp [childrenAt, hf]
  | cons c cs ih =>
    intro kids hc hf
    rw [List.cons_append]
    unfold childrenAt at hc ⊢
    cases hfe : findEntry kids c with
    | none => rw [hfe] at hc; simp at hc
    | some e =>
      rw [hfe] at hc
      cases e with
      | file => simp at hc
      | folder n fr' k' => exact ih k' hc hf

/-- The folder below `q` with a given name. -/
theorem child_folder {files : List SrcFile} {kids ch : List Entry} (ht : TreeOf files kids)
    {q : List Bytes} (hc : childrenAt kids q = some ch) {n : Bytes} (hn : IsDir files (q ++ [n])) :
    ∃ fr k, Entry.folder n fr k ∈ ch ∧ childrenAt kids (q ++ [n]) = some k := by
  have h1 := nodeAt_append q kids ch [n] hc
  rw [ht.dir _ hn] at h1
  simp only [nodeAt] at h1
  cases hf : findEntry ch n with
  | none => rw [hf] at h1; simp at h1
  | some e =>
    rw [hf] at h1
    obtain ⟨hm, hname⟩ := findEntry_some hf
    cases e with
    | file m i => simp at h1
    | folder m fr k =>
      simp only [Entry.name] at hname
      subst hname
      refine ⟨fr, k, hm, ?_⟩
      exact childrenAt_snoc q kids hc hf

/-- The time step folders below a folder, in the order of their names. -/
structure StepsOf (files : List SrcFile) (q : List Bytes) (steps : List Bytes) : Prop where
  sorted : steps.Pairwise LexLt
  names : ∀ n, n ∈ steps ↔ IsStepName n ∧ IsDir files (q ++ [n])

/-- Two lists of names in the same order with the same elements are equal. -/
theorem sorted_unique {l₁ l₂ : List Bytes} (h1 : l₁.Pairwise LexLt) (h2 : l₂.Pairwise LexLt)
    (h : ∀ n, n ∈ l₁ ↔ n ∈ l₂) : l₁ = l₂ := by
  induction l₁ generalizing l₂ with
  | nil =>
    cases l₂ with
    | nil => rfl
    | cons x xs => exact absurd ((h x).2 (by simp)) (by simp)
  | cons a t ih =>
    cases l₂ with
    | nil => exact absurd ((h a).1 (by simp)) (by simp)
    | cons b u =>
      rw [List.pairwise_cons] at h1 h2
      have hab : a = b := by
        have ha := (h a).1 (by simp)
        have hb := (h b).2 (by simp)
        simp only [List.mem_cons] at ha hb
        rcases ha with ha | ha
        · exact ha
        · rcases hb with hb | hb
          · exact hb.symm
          · have := LexLt.trans (h1.1 b hb) (h2.1 a ha)
            exact absurd this (LexLt.irrefl _)
      subst hab
      congr 1
      apply ih h1.2 h2.2
      intro n
      have := h n
      simp only [List.mem_cons] at this
      by_cases hn : n = a
      · subst hn
        constructor
        · intro hm; exact absurd (h1.1 n hm) (LexLt.irrefl _)
        · intro hm; exact absurd (h2.1 n hm) (LexLt.irrefl _)
      · simpa [hn] using this

/-- The d folders among the children of a folder are its time steps. -/
theorem steps_children {files : List SrcFile} {kids ch : List Entry} (ht : TreeOf files kids)
    {q : List Bytes} (hc : childrenAt kids q = some ch)
    (hnv : ∀ n, IsStepName n → lastVar (allVars files) (q ++ [n]) = none)
    {steps : List Bytes} (hst : StepsOf files q steps) :
    (ch.filter (fun e => isDString e.name)).map Entry.name = steps := by
  have hsub : SortedTree ch := ((childrenAt_spec _ _ ht.sorted).1 ch hc).1
  apply sorted_unique
  · rw [List.pairwise_map]
    exact hsub.sorted.filter _
  · exact hst.sorted
  · intro n
    rw [hst.names]
    simp only [List.mem_map, List.mem_filter]
    constructor
    · rintro ⟨e, ⟨he, hd⟩, rfl⟩
      have hname := (isDString_iff _).1 hd
      refine ⟨hname, ?_⟩
      rcases child_cases ht hc he with h | h
      · exact h.1
      · exact absurd (hnv _ hname) h.1
    · rintro ⟨h1, h2⟩
      obtain ⟨fr, k, hm, _⟩ := child_folder ht hc h2
      exact ⟨_, ⟨hm, (isDString_iff _).2 h1⟩, rfl⟩

/-- C20, proved part: for a folder that contains no variables, and in which every name with
the first letter d is a time step, the number of time steps is the number of time step
folders. Missing: folders with variables or with other names that start with d, for
which the claim is false (witnesses below); unknown paths are `c20_unknown`. -/
theorem c20_num_timesteps_partial (files : List SrcFile) (h : GoodSet files) (hne : files ≠ []) :
    ∃ n, ∀ fuel, n ≤ fuel → ∀ pattern, ∃ b,
      binoutOpen fuel pattern (files.map (fun s => (s.name, some s.content))) = .ok (some b) ∧
      ∀ (path : Bytes) (steps : List Bytes), path.head? = some SEP → 0 ∉ path →
        (∀ c ∈ path, c < 256) → IsDir files (components path) →
        (∀ n, lastVar (allVars files) (components path ++ [n]) = none) →
        (∀ n, IsDir files (components path ++ [n]) → n.head? = some 100 → IsStepName n) →
        StepsOf files (components path) steps →
        numTimesteps b.kids path = .ok (some steps.length) := by
  obtain ⟨n, hn⟩ := open_good files h hne
  refine ⟨n, fun fuel hf pattern => ?_⟩
  obtain ⟨kids, k1, k2⟩ := hn fuel hf pattern
  refine ⟨_, k1, fun path steps habs h0 hb hdir hnv hd hst => ?_⟩
  have ht := treeOf_represents h k2
  obtain ⟨ch, hc⟩ := childrenAt_of_dir ht hdir
  have hcases : ∀ e ∈ ch, IsDir files (components path ++ [e.name]) ∧ ∃ n fr k, e = .folder n fr k := by
    intro e he
    rcases child_cases ht hc he with h | h
    · exact h
    · exact absurd (hnv _) h.1
  rw [numTimesteps_tree ht.sorted ht.live ht.ascii path habs h0 hb ch hc
    (fun e he => (hcases e he).2) (fun e he => hd _ (hcases e he).1)]
  rw [← steps_children ht hc (fun n _ => hnv n) hst, List.length_map]

/-- C20 for paths that are not folders: not found, or 0 (below a folder without children). -/
theorem c20_unknown (files : List SrcFile) (h : GoodSet files) (hne : files ≠ []) :
    ∃ n, ∀ fuel, n ≤ fuel → ∀ pattern, ∃ b,
      binoutOpen fuel pattern (files.map (fun s => (s.name, some s.content))) = .ok (some b) ∧
      ∀ (path : Bytes), path.head? = some SEP → 0 ∉ path →
        (∀ c ∈ path, c < 256) → ¬ IsDir files (components path) →
        numTimesteps b.kids path = .ok none ∨ numTimesteps b.kids path = .ok (some 0) := by
  obtain ⟨n, hn⟩ := open_good files h hne
  refine ⟨n, fun fuel hf pattern => ?_⟩
  obtain ⟨kids, k1, k2⟩ := hn fuel hf pattern
  refine ⟨_, k1, fun path habs h0 hb hdir => ?_⟩
  have ht := treeOf_represents h k2
  have hpne : path ≠ [] := by rintro rfl; simp at habs
  obtain ⟨pv, e1, _⟩ := pvNew_abs path habs
  have hc : childrenAt kids (components path) = none := by
    cases hc : childrenAt kids (components path) with
    | none => rfl
    | some ch =>
      exfalso
      have hnode := ((childrenAt_spec _ _ ht.sorted).1 ch hc).2.1
      by_cases hp : Present files (components path)
      · rcases hp with hp | hp
        · exact hdir hp
        · obtain ⟨⟨ty, pl⟩, hpl⟩ := Option.ne_none_iff_exists'.1 hp
          obtain ⟨i, hi, _⟩ := ht.var _ _ _ hpl
          rw [hi] at hnode; simp at hnode
      · rw [ht.missing _ hp] at hnode; simp at hnode
  unfold numTimesteps
  rw [e1]
  simp only [Res.bind_ok, ne_eq, habs, not_true, if_false]
  rw [pvElems_eq path h0 hpne]
  simp only [Res.bind_ok]
  unfold dirGetChildren
  by_cases hk : kids.length = 0
  · rw [if_pos hk]; right; rfl
  · rw [if_neg hk]
    obtain ⟨r, r1, _, r3⟩ := folderGetChildren_eq (components path) kids ht.sorted ht.live ht.ascii
      (components_bytes path hb)
    rw [r1]
    rcases r3 hc with rfl | ⟨rfl, _⟩
    · left; rfl
    · right; rfl

/-- First and last time step of any array: only the first and the last of the middle part need to be time steps. -/
theorem steps_span {a D b : List Entry} (hD : D ≠ []) (ha : ∀ x ∈ a, isDString x.name = false)
    (hd : ∀ x, D.head? = some x ∨ D.getLast? = some x → isDString x.name = true)
    (hb : ∀ x ∈ b, isDString x.name = false) :
    firstD (a ++ D ++ b) = some a.length ∧
    lastDFrom (a ++ D ++ b) ((a ++ D ++ b).length - 1) = some (a.length + D.length - 1) := by
  constructor
  · cases D with
    | nil => exact absurd rfl hD
    | cons e t =>
      rw [List.append_assoc, List.cons_append]
      exact firstD_append ha (hd e (.inl rfl))
  · rcases List.eq_nil_or_concat D with h | ⟨t, e, h⟩
    · exact absurd h hD
    · have h' : D = t ++ [e] := by simpa using h
      subst h'
      have := lastDFrom_append (a ++ t) e b (hd e (.inr (by simp))) hb b.length (Nat.le_refl _)
      have e1 : a ++ (t ++ [e]) ++ b = a ++ t ++ e :: b := by simp
      have e2 : (a ++ (t ++ [e]) ++ b).length - 1 = (a ++ t).length + b.length := by
        simp; omega
      rw [e2, e1, this]
      simp

/-- Specification: the names `pre ++ D ++ post` in a folder, of which `D` are those from the first to the last time step
(or none). -/
structure Span (files : List SrcFile) (q pre D post : List Bytes) : Prop where
  sorted : (pre ++ D ++ post).Pairwise LexLt
  names : ∀ n, n ∈ pre ++ D ++ post ↔ Present files (q ++ [n])
  outside : ∀ n ∈ pre ++ post, ¬ IsStepName n
  ends : ∀ n, D.head? = some n ∨ D.getLast? = some n → IsStepName n

/-- C20, exactly, for every folder: if the first name in it is a variable, the folder is reported as not having time
steps (`~0`); otherwise the result is the number of names from the first to the last time step, also those that are no
time steps. -/
theorem c20_exact (files : List SrcFile) (h : GoodSet files) (hne : files ≠ []) :
    ∃ n, ∀ fuel, n ≤ fuel → ∀ pattern, ∃ b,
      binoutOpen fuel pattern (files.map (fun s => (s.name, some s.content))) = .ok (some b) ∧
      ∀ (path : Bytes) (pre D post : List Bytes), path.head? = some SEP → 0 ∉ path →
        (∀ c ∈ path, c < 256) → IsDir files (components path) → Span files (components path) pre D post →
        ((∀ m, (pre ++ D ++ post).head? = some m → IsDir files (components path ++ [m])) ∧
          numTimesteps b.kids path = .ok (some D.length)) ∨
        ((∃ m, (pre ++ D ++ post).head? = some m ∧ lastVar (allVars files) (components path ++ [m]) ≠ none) ∧
          numTimesteps b.kids path = .ok none) := by
  obtain ⟨n, hn⟩ := open_good files h hne
  refine ⟨n, fun fuel hf pattern => ?_⟩
  obtain ⟨kids, k1, k2⟩ := hn fuel hf pattern
  refine ⟨_, k1, fun path pre D post habs h0 hb hdir hsp => ?_⟩
  have ht := treeOf_represents h k2
  obtain ⟨ch, hc⟩ := childrenAt_of_dir ht hdir
  have hsub : SortedTree ch := ((childrenAt_spec _ _ ht.sorted).1 ch hc).1
  have hnames : ch.map Entry.name = pre ++ D ++ post := by
    apply sorted_unique
    · rw [List.pairwise_map]
      exact hsub.sorted
    · exact hsp.sorted
    · intro m
      rw [hsp.names, List.mem_map]
      constructor
      · rintro ⟨e, he, rfl⟩
        rcases child_cases ht hc he with g | g
        · exact .inl g.1
        · exact .inr g.1
      · rintro (g | g)
        · obtain ⟨fr, k, hm, _⟩ := child_folder ht hc g
          exact ⟨_, hm, rfl⟩
        · obtain ⟨⟨ty, pl⟩, hpl⟩ := Option.ne_none_iff_exists'.1 g
          obtain ⟨i, hi, _⟩ := ht.var _ _ _ hpl
          have h1 := nodeAt_append (components path) kids ch [m] hc
          rw [hi] at h1
          simp only [nodeAt] at h1
          cases hfe : findEntry ch m with
          | none => rw [hfe] at h1; simp at h1
          | some e =>
            obtain ⟨hm, hname⟩ := findEntry_some hfe
            exact ⟨e, hm, hname⟩
  obtain ⟨AD, b, rfl, hAD, hbp⟩ := List.map_eq_append_iff.1 hnames
  obtain ⟨a, d, rfl, ha, hd⟩ := List.map_eq_append_iff.1 hAD
  have hpne : path ≠ [] := by rintro rfl; simp at habs
  obtain ⟨pv, e1, _⟩ := pvNew_abs path habs
  have hg : dirGetChildren kids (components path) = .ok (some (a ++ d ++ b)) := by
    unfold dirGetChildren
    by_cases hk : kids.length = 0
    · have : kids = [] := List.length_eq_zero_iff.1 hk
      subst this
      cases hcc : components path with
      | nil => rw [hcc] at hc; simp [childrenAt] at hc; simp [hc]
      | cons c cs => rw [hcc] at hc; simp [childrenAt, findEntry] at hc
    · rw [if_neg hk]
      obtain ⟨r, r1, r2, _⟩ := folderGetChildren_eq (components path) kids ht.sorted ht.live ht.ascii
        (components_bytes path hb)
      rw [r1, r2 _ hc]
  have hnum : numTimesteps kids path = (match a ++ d ++ b with
      | [] => .ok (some 0)
      | .file _ _ :: _ => .ok none
      | .folder _ _ _ :: _ => .ok (some d.length)) := by
    unfold numTimesteps
    rw [e1]
    simp only [Res.bind_ok, ne_eq, habs, not_true, if_false]
    rw [pvElems_eq path h0 hpne]
    simp only [Res.bind_ok]
    rw [hg]
    simp only [Res.bind_ok]
    have hno : ∀ l : List Entry, (∀ m ∈ l.map Entry.name, ¬ IsStepName m) → ∀ x ∈ l, isDString x.name = false := by
      intro l hl x hx
      cases hx' : isDString x.name with
      | false => rfl
      | true => exact absurd ((isDString_iff _).1 hx') (hl _ (List.mem_map.2 ⟨x, hx, rfl⟩))
    have ha' := hno a (fun m hm => hsp.outside m (List.mem_append_left _ (ha ▸ hm)))
    have hb' := hno b (fun m hm => hsp.outside m (List.mem_append_right _ (hbp ▸ hm)))
    have hrest : (match firstD (a ++ d ++ b) with
        | none => Res.ok (some 0)
        | some s =>
          match lastDFrom (a ++ d ++ b) ((a ++ d ++ b).length - 1) with
          | none => .ub
          | some e => .ok (some (e - s + 1))) = Res.ok (some d.length) := by
      by_cases hdn : d = []
      · subst hdn
        rw [firstD_none]
        · rfl
        · intro x hx
          rw [List.append_nil] at hx
          exact (List.mem_append.1 hx).elim (ha' x) (hb' x)
      · obtain ⟨r1, r2⟩ := steps_span hdn ha' (fun x hx => (isDString_iff _).2 (hsp.ends x.name (by
          rw [← hd, List.head?_map, List.getLast?_map]
          rcases hx with hx | hx
          · exact .inl (by rw [hx]; rfl)
          · exact .inr (by rw [hx]; rfl)))) hb'
        rw [r1]
        simp only [r2]
        have : 0 < d.length := List.length_pos_iff.2 hdn
        congr 2
        omega
    cases hch : a ++ d ++ b with
    | nil => rfl
    | cons x xs =>
      rw [hch] at hrest
      cases x with
      | file _ _ => rfl
      | folder _ _ _ => exact hrest
  rw [← hnames, List.head?_map]
  show (_ ∧ numTimesteps kids path = _) ∨ (_ ∧ numTimesteps kids path = _)
  rw [hnum]
  cases hch : a ++ d ++ b with
  | nil =>
    left
    refine ⟨by simp, ?_⟩
    have : d = [] := by
      simp at hch
      exact hch.2.1
    rw [← hd, this]
    rfl
  | cons x xs =>
    have hx : x ∈ a ++ d ++ b := by rw [hch]; exact List.mem_cons_self ..
    rcases child_cases ht hc hx with ⟨g1, m, fr, k, rfl⟩ | ⟨g1, m, i, rfl⟩
    · left
      refine ⟨?_, ?_⟩
      · intro m' hm'
        simp only [List.head?_cons, Option.map_some, Option.some.injEq] at hm'
        rw [← hm']
        exact g1
      · rw [← hd, List.length_map]
    · right
      exact ⟨⟨_, rfl, g1⟩, rfl⟩

/-- Every folder has such a `Span`, if its names are listed in order. -/
theorem c20_span (files : List SrcFile) (q names : List Bytes) (h1 : names.Pairwise LexLt)
    (h2 : ∀ n, n ∈ names ↔ Present files (q ++ [n])) : ∃ pre D post, names = pre ++ D ++ post ∧ Span files q pre D post := by
  have first : ∀ l : List Bytes, (∀ n ∈ l, ¬ IsStepName n) ∨ ∃ a e t, l = a ++ e :: t ∧ (∀ n ∈ a, ¬ IsStepName n) ∧ IsStepName e := by
    intro l
    induction l with
    | nil => left; simp
    | cons x l ih =>
      by_cases hx : IsStepName x
      · exact .inr ⟨[], x, l, rfl, by simp, hx⟩
      · rcases ih with ih | ⟨a, e, t, rfl, g1, g2⟩
        · left
          intro n hn
          rcases List.mem_cons.1 hn with rfl | hn
          · exact hx
          · exact ih n hn
        · refine .inr ⟨x :: a, e, t, rfl, ?_, g2⟩
          intro n hn
          rcases List.mem_cons.1 hn with rfl | hn
          · exact hx
          · exact g1 n hn
  rcases first names with h | ⟨a, e, t, rfl, g1, g2⟩
  · exact ⟨names, [], [], by simp, by simpa using h1, by simpa using h2, by simpa using h, by simp⟩
  · rcases first t.reverse with k | ⟨b, e', m, k1, k2, k3⟩
    · refine ⟨a, [e], t, by simp, by simpa using h1, by simpa using h2, ?_, ?_⟩
      · intro n hn
        rcases List.mem_append.1 hn with hn | hn
        · exact g1 n hn
        · exact k n (List.mem_reverse.2 hn)
      · intro n hn
        simp only [List.head?_cons, List.getLast?_singleton, Option.some.injEq, or_self] at hn
        rw [← hn]
        exact g2
    · have kt : t = m.reverse ++ [e'] ++ b.reverse := by
        have := congrArg List.reverse k1
        rw [List.reverse_reverse] at this
        simpa using this
      have eqn : a ++ e :: t = a ++ (e :: (m.reverse ++ [e'])) ++ b.reverse := by
        rw [kt]
        simp
      refine ⟨a, e :: (m.reverse ++ [e']), b.reverse, eqn, by rw [← eqn]; exact h1, by rw [← eqn]; exact h2, ?_, ?_⟩
      · intro n hn
        rcases List.mem_append.1 hn with hn | hn
        · exact g1 n hn
        · exact k2 n (List.mem_reverse.1 hn)
      · intro n hn
        rcases hn with hn | hn
        · simp only [List.head?_cons, Option.some.injEq] at hn
          rw [← hn]
          exact g2
        · rw [List.getLast?_cons, List.getLast?_append, List.getLast?_singleton] at hn
          simp at hn
          rw [← hn]
          exact k3

/-- C20, witness: with the folders d1, d1a and d2 the number of time steps is 3, although
only two names are a d followed by digits; and a folder that has variables in front of its
time steps is reported as not found. -/
theorem c20_witnesses :
    let f (n : String) : Entry := .folder (bs n) false []
    numTimesteps [.folder (bs "a") false [f "d1", f "d1a", f "d2"]] (bs "/a") = .ok (some 3) ∧
    numTimesteps [.folder (bs "a") false [.file (bs "c") ⟨1, 1, 0, 0⟩, f "d1", f "d2"]] (bs "/a") =
      .ok none := by
  decide +kernel

/-! ## C19 -/

/-- The children of two time steps have the same names: the variable has the same index. -/
theorem index_eq {k k' : List Entry} (hn : k.map Entry.name = k'.map Entry.name) {i : Nat}
    {e e' : Entry} (hi : k[i]? = some e) (hm : e' ∈ k') (he : e'.name = e.name)
    (hs : SortedTree k') : k'[i]? = some e' := by
  have h1 : (k'.map Entry.name)[i]? = some e.name := by rw [← hn]; simp [hi]
  rw [List.getElem?_map] at h1
  cases hx : k'[i]? with
  | none => rw [hx] at h1; simp at h1
  | some x =>
    rw [hx] at h1
    simp at h1
    have a1 := findEntry_mem hs.sorted hm
    have a2 := findEntry_mem hs.sorted (List.mem_of_getElem? hx)
    rw [he] at a1
    rw [h1] at a2
    rw [a1] at a2
    exact congrArg some (by simpa using a2.symm)

theorem forall₂_of_mem {α β : Type} {R : α → β → Prop} : ∀ (l : List α) (f : α → β),
    (∀ x ∈ l, R x (f x)) → List.Forall₂ R l (l.map f)
  | [], _, _ => .nil
  | x :: xs, f, h => .cons (h x (by simp)) (forall₂_of_mem xs f (fun y hy => h y (by simp [hy])))

/-- C19, proved part: if below a folder every name that starts with d is a time step, all time
steps contain the same names, and the variable has the same number of bytes in all of them,
then reading it over time gives the payloads of the time steps one after the other in the
order of the folder names, the number of values per time step and the number of time
steps. Missing: variables in sub folders of the time steps (see `readTimed_tree` for the
general statement about trees), and the cases where the code deviates (witnesses below). -/
theorem c19_read_timed_partial (files : List SrcFile) (h : GoodSet files) (hne : files ≠ []) :
    ∃ n, ∀ fuel, n ≤ fuel → ∀ pattern, ∃ b,
      binoutOpen fuel pattern (files.map (fun s => (s.name, some s.content))) = .ok (some b) ∧
      ∀ (path : Bytes) (q : List Bytes) (v : Bytes) (steps : List Bytes) (payload : Bytes → Bytes)
        (size ty w : Nat), TypeWidth ty w →
        path.head? = some SEP → 0 ∉ path → (∀ c ∈ path, c < 256) →
        components path = q ++ [v] → q ≠ [] → IsDir files q →
        StepsOf files q steps → steps ≠ [] →
        (∀ n, Present files (q ++ [n]) → n.head? = some 100 →
          IsStepName n ∧ lastVar (allVars files) (q ++ [n]) = none) →
        ¬ Present files (q ++ [v]) →
        (∀ d ∈ steps, ∀ d' ∈ steps, ∀ n,
          Present files (q ++ [d, n]) ↔ Present files (q ++ [d', n])) →
        (∀ d ∈ steps, ∃ ty', lastVar (allVars files) (q ++ [d, v]) = some (ty', payload d)) →
        (∀ d ∈ steps, (payload d).length = size) → size / w ≠ 0 →
        readTimed b path ty =
          .ok (((steps.map payload).flatten).map some, size / w, steps.length) := by
  obtain ⟨n, hn⟩ := open_good files h hne
  refine ⟨n, fun fuel hf pattern => ?_⟩
  obtain ⟨kids, k1, k2⟩ := hn fuel hf pattern
  refine ⟨_, k1, fun path q v steps payload size ty w hw habs h0 hb hcomp hq hdir hst hsne hd hmiss
    hsame hvar hsz hty => ?_⟩
  rw [← hw.size] at hty ⊢
  have ht := treeOf_represents h k2
  obtain ⟨ch, hc⟩ := childrenAt_of_dir ht hdir
  have hsubs : SortedTree ch := ((childrenAt_spec _ _ ht.sorted).1 ch hc).1
  have hdn : ∀ e ∈ ch, e.name.head? = some 100 → IsStepName e.name := by
    intro e he hh
    apply (hd e.name _ hh).1
    rcases child_cases ht hc he with h | h
    · exact .inl h.1
    · exact .inr h.1
  have hnv : ∀ n, IsStepName n → lastVar (allVars files) (q ++ [n]) = none := by
    intro n hn
    by_contra hcon
    obtain ⟨ds, e, _⟩ := hn
    exact hcon (hd n (.inr hcon) (by simp [e])).2
  obtain ⟨a, b, s1, s2, s3⟩ := steps_adjacent hsubs.sorted hdn
  have hnames := steps_children ht hc hnv hst
  -- the children of a time step
  have hstep : ∀ e ∈ ch.filter (fun e => isDString e.name), ∃ fr k,
      e = .folder e.name fr k ∧ childrenAt kids (q ++ [e.name]) = some k ∧ e.name ∈ steps := by
    intro e he
    obtain ⟨hm, hdd⟩ := List.mem_filter.1 he
    have hin : e.name ∈ steps := by rw [← hnames]; exact List.mem_map.2 ⟨e, he, rfl⟩
    obtain ⟨fr, k, m1, m2⟩ := child_folder ht hc ((hst.names _).1 hin).2
    have e1 := findEntry_mem hsubs.sorted hm
    have e2 := findEntry_mem hsubs.sorted m1
    rw [show (Entry.folder e.name fr k).name = e.name from rfl, e1] at e2
    exact ⟨fr, k, by injection e2, m2, hin⟩
  -- all time steps have the same names
  have hchnames : ∀ e ∈ ch.filter (fun e => isDString e.name), ∀ k,
      childrenAt kids (q ++ [e.name]) = some k →
      SortedTree k ∧ ∀ n, n ∈ k.map Entry.name ↔ Present files (q ++ [e.name, n]) := by
    intro e he k hk
    obtain ⟨p1, p2, p3⟩ := (childrenAt_spec _ _ ht.sorted).1 k hk
    refine ⟨p1, fun n => ?_⟩
    rw [p3]
    rw [show q ++ [e.name] ++ [n] = q ++ [e.name, n] by simp]
    constructor
    · intro hn
      by_contra hp
      exact hn (ht.missing _ hp)
    · rintro (hp | hp)
      · rw [ht.dir _ hp]; simp
      · obtain ⟨⟨ty, pl⟩, hpl⟩ := Option.ne_none_iff_exists'.1 hp
        obtain ⟨i, hi, _⟩ := ht.var _ _ _ hpl
        rw [hi]; simp
  -- the variable in a time step
  have hfile : ∀ e ∈ ch.filter (fun e => isDString e.name), ∀ k,
      childrenAt kids (q ++ [e.name]) = some k → e.name ∈ steps →
      ∃ info, Entry.file v info ∈ k ∧ info.size = size ∧
        (size ≠ 0 → readInfo (files.map (fun s => some s.content)) info = .ok (payload e.name)) := by
    intro e he k hk hin
    obtain ⟨ty', hl⟩ := hvar _ hin
    obtain ⟨i, i1, i2, i3, i4⟩ := ht.var _ _ _ hl
    rw [show q ++ [e.name, v] = (q ++ [e.name]) ++ [v] by simp, nodeAt_append _ _ _ _ hk] at i1
    simp only [nodeAt] at i1
    cases hfe : findEntry k v with
    | none => rw [hfe] at i1; simp at i1
    | some x =>
      rw [hfe] at i1
      obtain ⟨x1, x2⟩ := findEntry_some hfe
      cases x with
      | folder => simp at i1
      | file m j =>
        simp at i1; subst i1
        simp only [Entry.name] at x2; subst x2
        have hsz' : j.size = size := by rw [i3, hsz _ hin]
        exact ⟨j, x1, hsz', fun hz => i4 (by rw [hsz']; exact hz)⟩
  have hz : size ≠ 0 := by rintro rfl; simp at hty
  -- the first time step fixes the index
  have hDne : ch.filter (fun e => isDString e.name) ≠ [] := by
    intro he; rw [he] at hnames; simp at hnames; exact hsne hnames
  obtain ⟨e0, t0, hE⟩ := List.exists_cons_of_ne_nil hDne
  have he0 : e0 ∈ ch.filter (fun e => isDString e.name) := by rw [hE]; simp
  obtain ⟨fr0, kk0, _, c0, in0⟩ := hstep e0 he0
  obtain ⟨i0, m0, _, _⟩ := hfile e0 he0 kk0 c0 in0
  obtain ⟨idx, hidx⟩ := getElem?_of_mem' m0
  have hall : List.Forall₂ (fun e pl => ∃ n fr ch info, e = Entry.folder n fr ch ∧
      IsPath ch [idx] [v] info ∧ info.size = size ∧
      readInfo (files.map (fun s => some s.content)) info = .ok pl ∧ pl.length = size)
      (ch.filter (fun e => isDString e.name))
      ((ch.filter (fun e => isDString e.name)).map (fun e => payload e.name)) := by
    apply forall₂_of_mem
    intro e he
    obtain ⟨fr, k, e1, e2, e3⟩ := hstep e he
    obtain ⟨info, m1, m2, m3⟩ := hfile e he k e2 e3
    obtain ⟨ks, kn⟩ := hchnames e he k e2
    obtain ⟨ks0, kn0⟩ := hchnames e0 he0 kk0 c0
    have heq : kk0.map Entry.name = k.map Entry.name := by
      apply sorted_unique
      · rw [List.pairwise_map]; exact ks0.sorted
      · rw [List.pairwise_map]; exact ks.sorted
      · intro n
        rw [kn0, kn]
        exact hsame _ in0 _ e3 n
    exact ⟨_, fr, k, info, e1, .file (index_eq heq hidx m1 rfl ks), m2, m3 hz, hsz _ e3⟩
  have := readTimed_tree ⟨kids, files.map (fun s => some s.content), none⟩ ht.sorted ht.live ht.ascii
    path habs h0 hb q [v] hcomp hq (by simp) a _ b (by rw [← s1]; exact hc) hDne s2
    (fun x hx => (List.mem_filter.1 hx).2) s3
    (by
      intro w hw
      simp at hw; subst hw
      rw [← s1, findEntry_none]
      intro e he hen
      rw [← hen] at hmiss
      rcases child_cases ht hc he with hx | hx
      · exact hmiss (.inl hx.1)
      · exact hmiss (.inr hx.1))
    [idx] size _ hall ty hty
  rw [this]
  have hm2 : (ch.filter (fun e => isDString e.name)).map (fun e => payload e.name) =
      steps.map payload := by rw [← hnames, List.map_map]; rfl
  rw [hm2, ← hnames, List.length_map]

/-- Time step names of the same length are ordered by their number. -/
def stepNumber (ds : Bytes) : Nat := ds.foldl (fun n c => 10 * n + (c - 48)) 0

theorem stepNumber_lt (a : Bytes) : ∀ (b : Bytes) (m n : Nat), a.length = b.length →
    (∀ c ∈ a, 48 ≤ c ∧ c ≤ 57) → (∀ c ∈ b, 48 ≤ c ∧ c ≤ 57) →
    (m < n ∨ (m = n ∧ LexLt a b)) →
    a.foldl (fun n c => 10 * n + (c - 48)) m < b.foldl (fun n c => 10 * n + (c - 48)) n := by
  induction a with
  | nil =>
    intro b m n hl _ _ h
    cases b with
    | nil => simpa [LexLt] using h
    | cons => simp at hl
  | cons x xs ih =>
    intro b m n hl ha hb h
    cases b with
    | nil => simp at hl
    | cons y ys =>
      simp only [List.foldl_cons]
      have hx := ha x (by simp)
      have hy := hb y (by simp)
      apply ih ys _ _ (by simpa using hl) (fun c hc => ha c (by simp [hc]))
        (fun c hc => hb c (by simp [hc]))
      rcases h with h | ⟨rfl, h⟩
      · left; omega
      · simp only [LexLt] at h
        rcases h with h | ⟨rfl, h⟩
        · left; omega
        · right; exact ⟨rfl, h⟩

/-- C19, order: for folder names of the same length (LS-DYNA pads them with zeros) the order of
the names is the order of the time step numbers. -/
theorem c19_name_order_is_time_order (a b : Bytes) (hl : a.length = b.length)
    (ha : ∀ c ∈ a, 48 ≤ c ∧ c ≤ 57) (hb : ∀ c ∈ b, 48 ≤ c ∧ c ≤ 57)
    (h : LexLt (100 :: a) (100 :: b)) : stepNumber a < stepNumber b := by
  apply stepNumber_lt a b 0 0 hl ha hb
  right
  simpa [LexLt] using h

/-- C19, witness: if the second time step holds more bytes than the first one, the read writes
behind the allocated buffer. -/
theorem c19_varying_size_overflows :
    let b : BinFile := ⟨[.folder (bs "a") false [
        .folder (bs "d1") false [.file (bs "x") ⟨1, 1, 0, 0⟩],
        .folder (bs "d2") false [.file (bs "x") ⟨1, 3, 0, 1⟩]]], [some [1, 2, 3, 4]], none⟩
    readTimed b (bs "/a/x") 1 = .ub := by
  decide +kernel

/-- C19, witness: the variable lies in a sub folder and the second time step has one more
sub folder: the values of a different variable are returned without an error. -/
theorem c19_wrong_variable :
    let b : BinFile := ⟨[.folder (bs "a") false [
        .folder (bs "d1") false [.folder (bs "s") false [.file (bs "x") ⟨1, 1, 0, 0⟩]],
        .folder (bs "d2") false [.folder (bs "r") false [.file (bs "x") ⟨1, 1, 0, 1⟩],
          .folder (bs "s") false [.file (bs "x") ⟨1, 1, 0, 2⟩]]]], [some [7, 8, 9]], none⟩
    readTimed b (bs "/a/s/x") 1 = .ok ([some 7, some 8], 1, 2) ∧
    getFile b.kids (bs "/a/d2/s/x") = .ok (some ⟨1, 1, 0, 2⟩) := by
  decide +kernel

/-- C19, witness: a component that does not exist is skipped. -/
theorem c19_missing_component_skipped :
    let b : BinFile := ⟨[.folder (bs "a") false [
        .folder (bs "d1") false [.file (bs "x") ⟨1, 1, 0, 0⟩]]], [some [7]], none⟩
    readTimed b (bs "/a/nonsense/x") 1 = .ok ([some 7], 1, 1) ∧
    readTimed b (bs "/a/x") 5 = .ok ([some 7], 1, 1) := by
  decide +kernel

/-! ## Concrete cases that meet the hypotheses -/

example : lastVar (allVars [sampleFile]) [bs "nodout", bs "d000002", bs "x"] =
    some (9, [5, 6, 7, 8]) := by decide +kernel

theorem sample_steps : StepsOf [sampleFile] [bs "nodout"] [bs "d000001", bs "d000002"] where
  sorted := by simp only [List.pairwise_cons]; decide +kernel
  names := by
    intro n
    have hf : allFolders [sampleFile] = [[bs "nodout", bs "metadata"], [bs "nodout", bs "d000001"],
        [bs "nodout", bs "d000002"]] := by decide +kernel
    unfold IsDir
    rw [hf]
    constructor
    · intro h
      simp only [List.mem_cons, List.not_mem_nil, or_false] at h
      rcases h with rfl | rfl
      · exact ⟨(isDString_iff _).1 (by decide +kernel), .inr ⟨[bs "nodout", bs "d000001"], by simp, by decide +kernel⟩⟩
      · exact ⟨(isDString_iff _).1 (by decide +kernel), .inr ⟨[bs "nodout", bs "d000002"], by simp, by decide +kernel⟩⟩
    · rintro ⟨h1, h2⟩
      rcases h2 with h2 | ⟨p, h2, h3⟩
      · simp at h2
      · simp only [List.mem_cons, List.not_mem_nil, or_false] at h2
        rcases h2 with rfl | rfl | rfl
        · simp at h3; subst h3
          exact absurd ((isDString_iff _).2 h1) (by decide +kernel)
        · simp at h3; subst h3; simp
        · simp at h3; subst h3; simp

theorem sample_folders : allFolders [sampleFile] = [[bs "nodout", bs "metadata"],
    [bs "nodout", bs "d000001"], [bs "nodout", bs "d000002"]] := by decide +kernel

theorem sample_vars : allVars [sampleFile] = [
    ([bs "nodout", bs "metadata", bs "ids"], 4, [1, 0, 0, 0, 0, 0, 0, 0]),
    ([bs "nodout", bs "d000001", bs "x"], 9, [1, 2, 3, 4]),
    ([bs "nodout", bs "d000002", bs "x"], 9, [5, 6, 7, 8])] := by decide +kernel

theorem sample_var2 (n : Bytes) : lastVar (allVars [sampleFile]) [bs "nodout", n] = none := by
  rw [sample_vars]; simp [lastVar]

theorem sample_dir2 (n : Bytes) (h : IsDir [sampleFile] [bs "nodout", n]) :
    n = bs "metadata" ∨ n = bs "d000001" ∨ n = bs "d000002" := by
  unfold IsDir at h
  rw [sample_folders] at h
  rcases h with h | ⟨p, h2, h3⟩
  · simp at h
  · simp only [List.mem_cons, List.not_mem_nil, or_false] at h2
    rcases h2 with rfl | rfl | rfl <;> simp at h3 <;> subst h3 <;> simp

theorem sample_head (n : Bytes) (h : IsDir [sampleFile] [bs "nodout", n])
    (hh : n.head? = some 100) : IsStepName n := by
  rcases sample_dir2 n h with rfl | rfl | rfl
  · exact absurd hh (by decide +kernel)
  · exact (isDString_iff _).1 (by decide +kernel)
  · exact (isDString_iff _).1 (by decide +kernel)

theorem sample_present3 (d : Bytes) (hd : d ∈ [bs "d000001", bs "d000002"]) (n : Bytes) :
    Present [sampleFile] [bs "nodout", d, n] ↔ n = bs "x" := by
  constructor
  · rintro (h | h)
    · unfold IsDir at h
      rw [sample_folders] at h
      rcases h with h | ⟨p, h2, h3⟩
      · simp at h
      · simp only [List.mem_cons, List.not_mem_nil, or_false] at h2
        rcases h2 with rfl | rfl | rfl <;> simp at h3
    · rw [sample_vars] at h
      by_contra hn
      have hn' : ¬ bs "x" = n := fun h => hn h.symm
      apply h
      simp only [List.mem_cons, List.not_mem_nil, or_false] at hd
      rcases hd with rfl | rfl
      · simp [lastVar, hn', show ¬ bs "metadata" = bs "d000001" by decide +kernel]
      · simp [lastVar, hn', show ¬ bs "metadata" = bs "d000002" by decide +kernel]
  · rintro rfl
    right
    simp only [List.mem_cons, List.not_mem_nil, or_false] at hd
    rcases hd with rfl | rfl <;> decide +kernel

/-- The number of time steps and the values over time of the sample file. -/
example : ∃ n, ∀ fuel, n ≤ fuel → ∀ pattern, ∃ b b',
    binoutOpen fuel pattern [(sampleFile.name, some sampleFile.content)] = .ok (some b) ∧
    readTimed b (bs "/nodout/x") 9 = .ok ([1, 2, 3, 4, 5, 6, 7, 8].map some, 1, 2) ∧
    binoutOpen fuel pattern [(sampleFile.name, some sampleFile.content)] = .ok (some b') ∧
    numTimesteps b'.kids (bs "/nodout") = .ok (some 2) := by
  obtain ⟨n, hn⟩ := c19_read_timed_partial [sampleFile] sampleFile_good (by simp)
  obtain ⟨m, hm⟩ := c20_num_timesteps_partial [sampleFile] sampleFile_good (by simp)
  refine ⟨max n m, fun fuel hf pattern => ?_⟩
  obtain ⟨b, b1, b2⟩ := hn fuel (by omega) pattern
  obtain ⟨b', c1, c2⟩ := hm fuel (by omega) pattern
  have hq1 : components (bs "/nodout/x") = [bs "nodout"] ++ [bs "x"] := by decide +kernel
  have hq2 : components (bs "/nodout") = [bs "nodout"] := by decide +kernel
  have hdir : IsDir [sampleFile] [bs "nodout"] :=
    .inr ⟨[bs "nodout", bs "metadata"], by decide +kernel, by decide +kernel⟩
  refine ⟨b, b', b1, ?_, c1, ?_⟩
  · have := b2 (bs "/nodout/x") [bs "nodout"] (bs "x") [bs "d000001", bs "d000002"]
      (fun d => if d = bs "d000001" then [1, 2, 3, 4] else [5, 6, 7, 8]) 4 9 4 TypeWidth.float32
      (by decide +kernel) (by decide +kernel) (by decide +kernel) hq1 (by simp) hdir sample_steps
      (by simp)
      (by
        intro n hp hh
        refine ⟨?_, sample_var2 n⟩
        rcases hp with hp | hp
        · exact sample_head n hp hh
        · exact absurd (sample_var2 n) hp)
      (by
        rintro (hp | hp)
        · rcases sample_dir2 _ hp with h | h | h <;> exact absurd h (by decide +kernel)
        · exact hp (sample_var2 _))
      (by
        intro d hd d' hd' n
        have h1 := sample_present3 d hd n
        have h2 := sample_present3 d' hd' n
        simp only [List.cons_append, List.nil_append]
        rw [h1, h2])
      (by
        intro d hd
        simp only [List.mem_cons, List.not_mem_nil, or_false] at hd
        refine ⟨9, ?_⟩
        rcases hd with rfl | rfl <;> decide +kernel)
      (by
        intro d hd
        split <;> rfl)
      (by decide +kernel)
    rw [this]
    decide +kernel
  · have := c2 (bs "/nodout") [bs "d000001", bs "d000002"] (by decide +kernel) (by decide +kernel)
      (by decide +kernel) (by rw [hq2]; exact hdir)
      (by intro n; rw [hq2]; exact sample_var2 n)
      (by intro n; rw [hq2]; exact sample_head n)
      (by rw [hq2]; exact sample_steps)
    rw [this]; rfl

/-- `c20_exact` is not vacuous: the folder of the sample file has a folder behind its time steps. -/
theorem sample_span : Span [sampleFile] [bs "nodout"] [] [bs "d000001", bs "d000002"] [bs "metadata"] where
  sorted := by simp only [List.nil_append, List.cons_append, List.pairwise_cons]; decide +kernel
  names := by
    intro n
    constructor
    · intro hn
      simp only [List.nil_append, List.cons_append, List.mem_cons, List.not_mem_nil, or_false] at hn
      unfold Present IsDir
      rw [sample_folders]
      rcases hn with rfl | rfl | rfl <;> refine .inl (.inr ⟨_, ?_, List.prefix_refl _⟩) <;> simp
    · rintro (hn | hn)
      · rcases sample_dir2 n hn with rfl | rfl | rfl <;> simp
      · exact absurd (sample_var2 n) hn
  outside := by
    intro n hn
    simp only [List.nil_append, List.mem_singleton] at hn
    subst hn
    exact fun hs => absurd ((isDString_iff _).2 hs) (by decide +kernel)
  ends := by
    intro n hn
    simp only [List.head?_cons, List.getLast?_cons_cons, List.getLast?_singleton, Option.some.injEq] at hn
    rcases hn with rfl | rfl <;> exact (isDString_iff _).1 (by decide +kernel)

end Dyna
