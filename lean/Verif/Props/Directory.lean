import Verif.DirectoryLemmas
/-!
# Properties C07-C11: the binout directory over histories of insertions
-/

namespace Dyna

/-! ## Specification of a history -/

/-- The variables written by a history, with their full paths, in order. `cur` is the
folder of the last `cd`. -/
def writesFrom (cur : List Bytes) : List DirOp → List (List Bytes × FileInfo)
  | [] => []
  | .cd p :: t => writesFrom p t
  | .data n i :: t => (cur ++ [n], i) :: writesFrom cur t

def writes (ops : List DirOp) : List (List Bytes × FileInfo) := writesFrom [] ops

/-- The last variable written under a path. -/
def lastWrite (ops : List DirOp) (q : List Bytes) : Option FileInfo :=
  ((writes ops).reverse.find? (fun w => w.1 = q)).map Prod.snd

/-- A path is a folder if it is the root or lies on the way to the target of some `cd`. -/
def IsFolder (ops : List DirOp) (q : List Bytes) : Prop :=
  q = [] ∨ ∃ p, DirOp.cd p ∈ ops ∧ q <+: p

/-- No path is used both as a variable and as a folder. -/
def NoClash (ops : List DirOp) : Prop := ∀ w ∈ writes ops, ¬ IsFolder ops w.1

/-- The history starts with a `cd` (as every LS-DYNA file does). -/
def StartsWithCd (ops : List DirOp) : Prop := ops = [] ∨ ∃ p t, ops = .cd p :: t

/-- All names used by the history are of 7-bit characters. -/
def AsciiOps (ops : List DirOp) : Prop :=
  ∀ op ∈ ops, match op with
    | .cd p => ∀ c ∈ p, Ascii c
    | .data n _ => Ascii n

/-- No `cd` goes to the root. -/
def NonRoot (ops : List DirOp) : Prop := ∀ p, DirOp.cd p ∈ ops → p ≠ []

/-! ## Lemmas -/

def lastCd (cur : List Bytes) : List DirOp → List Bytes
  | [] => cur
  | .cd p :: t => lastCd p t
  | .data _ _ :: t => lastCd cur t

theorem lastCd_append (a b : List DirOp) (cur : List Bytes) :
    lastCd cur (a ++ b) = lastCd (lastCd cur a) b := by
  induction a generalizing cur with
  | nil => rfl
  | cons op t ih => cases op <;> simp [lastCd, ih]

theorem writesFrom_append (a b : List DirOp) (cur : List Bytes) :
    writesFrom cur (a ++ b) = writesFrom cur a ++ writesFrom (lastCd cur a) b := by
  induction a generalizing cur with
  | nil => rfl
  | cons op t ih => cases op <;> simp [writesFrom, lastCd, ih]

theorem lastCd_mem (ops : List DirOp) (cur : List Bytes) :
    lastCd cur ops = cur ∨ DirOp.cd (lastCd cur ops) ∈ ops := by
  induction ops generalizing cur with
  | nil => exact .inl rfl
  | cons op t ih =>
    cases op with
    | cd p =>
      simp only [lastCd]
      rcases ih p with h | h
      · right; rw [h]; simp
      · right; simp [h]
    | data n i =>
      simp only [lastCd]
      rcases ih cur with h | h
      · exact .inl h
      · right; simp [h]

theorem lastCd_cons_mem (p : List Bytes) (t : List DirOp) (cur : List Bytes) :
    DirOp.cd (lastCd cur (.cd p :: t)) ∈ DirOp.cd p :: t := by
  simp only [lastCd]
  rcases lastCd_mem t p with h | h
  · rw [h]; simp
  · simp [h]

theorem lastWrite_some_mem {ops : List DirOp} {q : List Bytes} {i : FileInfo}
    (h : lastWrite ops q = some i) : (q, i) ∈ writes ops := by
  unfold lastWrite at h
  rw [Option.map_eq_some_iff] at h
  obtain ⟨w, h1, h2⟩ := h
  have hm := List.mem_of_find?_eq_some h1
  have hp := List.find?_some h1
  simp at hm hp
  subst h2; subst hp; exact hm

theorem lastWrite_none {ops : List DirOp} {q : List Bytes} :
    lastWrite ops q = none ↔ ∀ w ∈ writes ops, w.1 ≠ q := by
  unfold lastWrite; simp

/-- What the tree must look like after a history. -/
structure Represents (ops : List DirOp) (kids : List Entry) : Prop where
  sorted : SortedTree kids
  live : LiveTree kids
  file : ∀ q i, lastWrite ops q = some i → nodeAt kids q = some (.file i)
  folder : ∀ q, lastWrite ops q = none → IsFolder ops q → nodeAt kids q = some .folder
  missing : ∀ q, lastWrite ops q = none → ¬ IsFolder ops q → nodeAt kids q = none
  ascii : AsciiOps ops → AsciiTree kids

theorem lastWrite_snoc_cd (pre : List DirOp) (p q : List Bytes) :
    lastWrite (pre ++ [.cd p]) q = lastWrite pre q := by
  simp [lastWrite, writes, writesFrom_append, writesFrom]

theorem lastWrite_snoc_data (pre : List DirOp) (n : Bytes) (i : FileInfo) (q : List Bytes) :
    lastWrite (pre ++ [.data n i]) q =
      if q = lastCd [] pre ++ [n] then some i else lastWrite pre q := by
  unfold lastWrite writes
  rw [writesFrom_append]
  simp only [writesFrom, List.reverse_append, List.reverse_cons, List.reverse_nil,
    List.nil_append, List.singleton_append, List.find?_cons]
  by_cases h : q = lastCd [] pre ++ [n]
  · simp [h]
  · have h' : ¬ lastCd [] pre ++ [n] = q := fun e => h e.symm
    simp [h, h']

theorem isFolder_snoc_data (pre : List DirOp) (n : Bytes) (i : FileInfo) (q : List Bytes) :
    IsFolder (pre ++ [.data n i]) q ↔ IsFolder pre q := by
  simp [IsFolder]

theorem isFolder_snoc_cd (pre : List DirOp) (p q : List Bytes) :
    IsFolder (pre ++ [.cd p]) q ↔ IsFolder pre q ∨ q <+: p := by
  simp only [IsFolder, List.mem_append, List.mem_singleton, DirOp.cd.injEq]
  constructor
  · rintro (h | ⟨p', h | h, h2⟩)
    · exact .inl (.inl h)
    · exact .inl (.inr ⟨p', h, h2⟩)
    · subst h; exact .inr h2
  · rintro ((h | ⟨p', h, h2⟩) | h)
    · exact .inl h
    · exact .inr ⟨p', .inl h, h2⟩
    · exact .inr ⟨p, .inr rfl, h⟩

theorem dirRun_represents (rest : List DirOp) : ∀ (pre : List DirOp) (st : DirState),
    NoClash (pre ++ rest) → StartsWithCd (pre ++ rest) → Represents pre st.kids →
    (pre ≠ [] → st.cur = some (lastCd [] pre)) →
    ∃ st', dirRun st rest = .ok st' ∧ Represents (pre ++ rest) st'.kids ∧
      (pre ++ rest ≠ [] → st'.cur = some (lastCd [] (pre ++ rest))) := by
  induction rest with
  | nil =>
    intro pre st _ _ hr hc
    exact ⟨st, rfl, by simpa using hr, by simpa using hc⟩
  | cons op rest ih =>
    intro pre st hnc hsc hr hc
    have hassoc : pre ++ op :: rest = (pre ++ [op]) ++ rest := by simp
    have hmono : ∀ q, IsFolder pre q → IsFolder (pre ++ op :: rest) q := by
      rintro q (h | ⟨p, h, h2⟩)
      · exact .inl h
      · exact .inr ⟨p, by simp [h], h2⟩
    have hwpre : ∀ w ∈ writes pre, w ∈ writes (pre ++ op :: rest) := by
      intro w hw; simp only [writes, writesFrom_append] at *; simp [hw]
    cases op with
    | cd p =>
      obtain ⟨kids', b, h1, h2, h3, h4, h5, h6, h7⟩ := insertFolder_spec p st.kids hr.sorted hr.live
      have noWrite : ∀ q, q <+: p → lastWrite pre q = none := by
        intro q hq
        cases hl : lastWrite pre q with
        | none => rfl
        | some i =>
          exact absurd (.inr ⟨p, by simp, hq⟩) (hnc _ (hwpre _ (lastWrite_some_mem hl)))
      have hb : b = true := by
        rw [h4]
        rintro ⟨q, info, e1, e2⟩
        have hl := noWrite q e1
        by_cases hf : IsFolder pre q
        · have := hr.folder q hl hf; rw [this] at e2; cases e2
        · have := hr.missing q hl hf; rw [this] at e2; cases e2
      subst hb
      have hstep : dirStep st (.cd p) = .ok { kids := kids', cur := some p } := by
        simp [dirStep, h1]
      have hr' : Represents (pre ++ [.cd p]) kids' := by
        refine ⟨h2, h3, ?_, ?_, ?_, ?_⟩
        · intro q i hl
          rw [lastWrite_snoc_cd] at hl
          rw [h5 rfl]
          rw [if_neg (fun hq => by rw [noWrite q hq] at hl; cases hl)]
          exact hr.file q i hl
        · intro q hl hf
          rw [lastWrite_snoc_cd] at hl
          rw [isFolder_snoc_cd] at hf
          rw [h5 rfl]
          by_cases hq : q <+: p
          · simp [hq]
          · simp only [hq, if_false, or_false] at hf ⊢
            exact hr.folder q hl hf
        · intro q hl hf
          rw [lastWrite_snoc_cd] at hl
          rw [isFolder_snoc_cd] at hf
          rw [h5 rfl]
          by_cases hq : q <+: p
          · exact absurd (.inr hq) hf
          · simp only [hq, if_false, or_false] at hf ⊢
            exact hr.missing q hl hf
        · intro ha
          apply h7
          · have := ha (.cd p) (by simp)
            exact this
          · exact hr.ascii (fun op hop => ha op (by simp [hop]))
      obtain ⟨st', g1, g2, g3⟩ := ih (pre ++ [.cd p]) { kids := kids', cur := some p }
        (by rw [← hassoc]; exact hnc) (by rw [← hassoc]; exact hsc) hr'
        (fun _ => by simp [lastCd_append, lastCd])
      exact ⟨st', by simp [dirRun, hstep, g1], by rw [hassoc]; exact g2, by rw [hassoc]; exact g3⟩
    | data n i =>
      have hpre : pre ≠ [] := by
        rintro rfl
        rcases hsc with h | ⟨p, t, h⟩ <;> simp at h
      obtain ⟨p0, t0, hp0⟩ : ∃ p t, pre = .cd p :: t := by
        rcases hsc with h | ⟨p, t, h⟩
        · simp at h
        · cases pre with
          | nil => exact absurd rfl hpre
          | cons x xs => simp at h; exact ⟨p, xs, by rw [h.1]⟩
      have hcur := hc hpre
      generalize hcd : lastCd [] pre = cur at hcur
      have hcdmem : DirOp.cd cur ∈ pre := by
        rw [← hcd, hp0]; exact lastCd_cons_mem p0 t0 []
      have hfold : IsFolder pre cur := .inr ⟨cur, hcdmem, List.prefix_refl _⟩
      have hlcur : lastWrite pre cur = none := by
        cases hl : lastWrite pre cur with
        | none => rfl
        | some i' => exact absurd (hmono _ hfold) (hnc _ (hwpre _ (lastWrite_some_mem hl)))
      have hn1 := hr.folder cur hlcur hfold
      have hwm : (cur ++ [n], i) ∈ writes (pre ++ .data n i :: rest) := by
        simp only [writes, writesFrom_append, hcd, writesFrom]; simp
      have hnf : ¬ IsFolder pre (cur ++ [n]) := fun h => hnc _ hwm (hmono _ h)
      have hn2 : nodeAt st.kids (cur ++ [n]) ≠ some .folder := by
        cases hl : lastWrite pre (cur ++ [n]) with
        | none => rw [hr.missing _ hl hnf]; simp
        | some i' => rw [hr.file _ _ hl]; simp
      obtain ⟨kids', h1, h2, h3, h4, h5⟩ :=
        insertFileAt_spec cur n i st.kids hr.sorted hr.live hn1 hn2
      have hstep : dirStep st (.data n i) = .ok { kids := kids', cur := some cur } := by
        simp [dirStep, hcur, h1]
      have hr' : Represents (pre ++ [.data n i]) kids' := by
        refine ⟨h2, h3, ?_, ?_, ?_, ?_⟩
        · intro q i' hl
          rw [lastWrite_snoc_data, hcd] at hl
          rw [h4]
          split
          · rename_i hq; rw [if_pos hq] at hl; cases hl; rfl
          · rename_i hq; rw [if_neg hq] at hl; exact hr.file q i' hl
        · intro q hl hf
          rw [lastWrite_snoc_data, hcd] at hl
          rw [isFolder_snoc_data] at hf
          rw [h4]
          split
          · rename_i hq; rw [if_pos hq] at hl; cases hl
          · rename_i hq; rw [if_neg hq] at hl; exact hr.folder q hl hf
        · intro q hl hf
          rw [lastWrite_snoc_data, hcd] at hl
          rw [isFolder_snoc_data] at hf
          rw [h4]
          split
          · rename_i hq; rw [if_pos hq] at hl; cases hl
          · rename_i hq; rw [if_neg hq] at hl; exact hr.missing q hl hf
        · intro ha
          apply h5
          · exact ha (.data n i) (by simp)
          · exact hr.ascii (fun op hop => ha op (by simp [hop]))
      obtain ⟨st', g1, g2, g3⟩ := ih (pre ++ [.data n i]) { kids := kids', cur := some cur }
        (by rw [← hassoc]; exact hnc) (by rw [← hassoc]; exact hsc) hr'
        (fun _ => by simp [lastCd_append, lastCd, hcd])
      exact ⟨st', by simp [dirRun, hstep, g1], by rw [hassoc]; exact g2, by rw [hassoc]; exact g3⟩

theorem represents_nil : Represents [] [] := by
  refine ⟨SortedTree.nil, LiveTree.nil, ?_, ?_, ?_, fun _ => AsciiTree.nil⟩
  · intro q i h; simp [lastWrite, writes, writesFrom] at h
  · intro q _ h
    rcases h with h | ⟨p, h, _⟩
    · subst h; rfl
    · simp at h
  · intro q _ h
    rw [nodeAt_nil_kids, if_neg (fun hq => h (.inl hq))]

theorem dir_history (ops : List DirOp) (hnc : NoClash ops) (hsc : StartsWithCd ops) :
    ∃ st, dirRun {} ops = .ok st ∧ Represents ops st.kids := by
  obtain ⟨st, h1, h2, _⟩ := dirRun_represents ops [] {} (by simpa using hnc) (by simpa using hsc)
    represents_nil (by simp)
  exact ⟨st, h1, by simpa using h2⟩

theorem childrenAt_spec (q : List Bytes) : ∀ kids, SortedTree kids →
    (∀ ch, childrenAt kids q = some ch → SortedTree ch ∧
      nodeAt kids q = some .folder ∧
      ∀ n, (n ∈ ch.map Entry.name ↔ nodeAt kids (q ++ [n]) ≠ none)) ∧
    (childrenAt kids q = none → nodeAt kids q ≠ some .folder) := by
  induction q with
  | nil =>
    intro kids hs
    refine ⟨?_, by simp [childrenAt]⟩
    intro ch h
    simp [childrenAt] at h
    subst h
    refine ⟨hs, rfl, ?_⟩
    intro n
    simp only [List.nil_append, nodeAt]
    constructor
    · intro hn
      obtain ⟨e, he, rfl⟩ := List.mem_map.1 hn
      rw [findEntry_mem hs.sorted he]
      cases e <;> simp
    · intro hn
      cases hf : findEntry kids n with
      | none => simp [hf] at hn
      | some e =>
        obtain ⟨h1, h2⟩ := findEntry_some hf
        exact h2 ▸ List.mem_map_of_mem h1
  | cons c cs ih =>
    intro kids hs
    simp only [childrenAt, nodeAt, List.cons_append]
    cases hf : findEntry kids c with
    | none => simp
    | some e =>
      cases e with
      | file n i => refine ⟨by simp, ?_⟩; intro _; simp
      | folder n fr ch0 =>
        simp only
        exact ih ch0 (hs.sub (findEntry_some hf).1)

/-! ## C07 -/

theorem insertFolder_sorted (path : List Bytes) : ∀ (kids kids' : List Entry) (b : Bool),
    SortedTree kids → insertFolder kids path = .ok (kids', b) → SortedTree kids' := by
  induction path with
  | nil => intro kids kids' b hs h; simp [insertFolder] at h; rw [← h.1]; exact hs
  | cons name rest ih =>
    intro kids kids' b hs h
    unfold insertFolder at h
    rcases searchInsert_spec' name hs.sorted with h1 | ⟨i, e, h1, h2, h3⟩ | ⟨i, h1, h2, h3, h4⟩
    · simp [h1] at h
    · simp only [h1, h2] at h
      have hmem := List.mem_of_getElem? h2
      cases e with
      | file n info => simp at h; rw [← h.1]; exact hs
      | folder n fr ch =>
        simp only at h
        cases hr : insertFolder ch rest with
        | ok r =>
          obtain ⟨ch', b'⟩ := r
          simp [hr] at h
          rw [← h.1]
          refine ⟨_, pairwise_set h2 rfl hs.sorted, ?_⟩
          intro n' fr' ch'' hm
          rcases List.mem_or_eq_of_mem_set hm with hm | hm
          · exact hs.sub hm
          · cases hm; exact ih ch ch' b' (hs.sub hmem) hr
        | err => simp [hr] at h
        | ub => simp [hr] at h
        | abort => simp [hr] at h
    · simp only [h1] at h
      cases hr : insertFolder [] rest with
      | ok r =>
        obtain ⟨ch', b'⟩ := r
        simp [hr] at h
        rw [← h.1]
        refine ⟨_, pairwise_insertAt hs.sorted h3 h4, ?_⟩
        intro n' fr' ch'' hm
        rcases mem_insertAt.1 hm with hm | hm
        · cases hm; exact ih [] ch' b' SortedTree.nil hr
        · exact hs.sub hm
      | err => simp [hr] at h
      | ub => simp [hr] at h
      | abort => simp [hr] at h

theorem insertFile_sorted (kids kids' : List Entry) (name : Bytes) (info : FileInfo)
    (hs : SortedTree kids) (h : insertFile kids name info = .ok kids') : SortedTree kids' := by
  unfold insertFile at h
  rcases searchInsert_spec' name hs.sorted with h1 | ⟨i, e, h1, h2, h3⟩ | ⟨i, h1, h2, h3, h4⟩
  · simp [h1] at h
  · simp only [h1, h2] at h
    have hmem := List.mem_of_getElem? h2
    cases e with
    | file n old =>
      simp at h; rw [← h]
      simp only [Entry.name] at h3
      refine ⟨_, pairwise_set h2 (by simp [Entry.name, h3]) hs.sorted, ?_⟩
      intro n' fr' ch'' hm
      rcases List.mem_or_eq_of_mem_set hm with hm | hm
      · exact hs.sub hm
      · cases hm
    | folder n fr ch =>
      simp at h; rw [← h]
      refine ⟨_, pairwise_set h2 rfl hs.sorted, ?_⟩
      intro n' fr' ch'' hm
      rcases List.mem_or_eq_of_mem_set hm with hm | hm
      · exact hs.sub hm
      · cases hm; exact hs.sub hmem
  · simp only [h1] at h
    simp at h; rw [← h]
    refine ⟨_, pairwise_insertAt hs.sorted h3 h4, ?_⟩
    intro n' fr' ch'' hm
    rcases mem_insertAt.1 hm with hm | hm
    · cases hm
    · exact hs.sub hm

theorem insertFileAt_sorted (cur : List Bytes) (name : Bytes) (info : FileInfo) :
    ∀ (kids kids' : List Entry), SortedTree kids →
    insertFileAt kids cur name info = .ok kids' → SortedTree kids' := by
  induction cur with
  | nil => intro kids kids' hs h; exact insertFile_sorted kids kids' name info hs h
  | cons c cs ih =>
    intro kids kids' hs h
    unfold insertFileAt at h
    cases hf : findEntry kids c with
    | none => simp [hf] at h
    | some e =>
      obtain ⟨hmem, hname⟩ := findEntry_some hf
      cases e with
      | file n i => simp [hf] at h
      | folder n fr ch =>
        simp only [Entry.name] at hname
        subst hname
        simp only [hf] at h
        cases hr : insertFileAt ch cs name info with
        | ok ch' =>
          simp [hr] at h; rw [← h]
          refine ⟨_, pairwise_replace rfl hs.sorted, ?_⟩
          intro n' fr' ch'' hm
          rcases mem_replaceEntry hm with hm | hm
          · cases hm; exact ih ch ch' (hs.sub hmem) hr
          · exact hs.sub hm
        | err => simp [hr] at h
        | ub => simp [hr] at h
        | abort => simp [hr] at h

theorem dirRun_sorted (ops : List DirOp) : ∀ (st st' : DirState), SortedTree st.kids →
    dirRun st ops = .ok st' → SortedTree st'.kids := by
  induction ops with
  | nil => intro st st' hs h; simp [dirRun] at h; subst h; exact hs
  | cons op ops ih =>
    intro st st' hs h
    simp only [dirRun] at h
    cases hst : dirStep st op with
    | ok st1 =>
      simp [hst] at h
      refine ih st1 st' ?_ h
      cases op with
      | cd p =>
        simp only [dirStep] at hst
        cases hr : insertFolder st.kids p with
        | ok r => simp [hr] at hst; subst hst; exact insertFolder_sorted p _ _ r.2 hs hr
        | err => simp [hr] at hst
        | ub => simp [hr] at hst
        | abort => simp [hr] at hst
      | data n i =>
        simp only [dirStep] at hst
        cases hc : st.cur with
        | none => simp [hc] at hst
        | some cur =>
          simp only [hc] at hst
          cases hr : insertFileAt st.kids cur n i with
          | ok r => simp [hr] at hst; subst hst; exact insertFileAt_sorted cur n i _ _ hs hr
          | err => simp [hr] at hst
          | ub => simp [hr] at hst
          | abort => simp [hr] at hst
    | err => simp [hst] at h
    | ub => simp [hst] at h
    | abort => simp [hst] at h

/-- C07: whatever operations are performed on an empty directory (including ones that use a
name both as file and as folder), if they complete, every folder lists its children in
strictly increasing name order; in particular no name occurs twice. -/
theorem c07_children_sorted (ops : List DirOp) (st : DirState) (h : dirRun {} ops = .ok st) :
    ∀ q ch, childrenAt st.kids q = some ch →
      (ch.map Entry.name).Pairwise LexLt ∧ (ch.map Entry.name).Nodup := by
  intro q ch hq
  have hs := dirRun_sorted ops {} st SortedTree.nil h
  have := ((childrenAt_spec q st.kids hs).1 ch hq).1.sorted
  have hp : (ch.map Entry.name).Pairwise LexLt := by rwa [List.pairwise_map]
  exact ⟨hp, hp.imp (fun {a b} hab (he : a = b) => by subst he; exact LexLt.irrefl _ hab)⟩

/-! ## C08 -/

theorem components_bytes (path : Bytes) (hb : ∀ c ∈ path, c < 256) :
    ∀ n ∈ components path, ∀ c ∈ n, c < 256 := by
  have hsplit : ∀ (s : Bytes), ∀ n ∈ splitSep s, ∀ c ∈ n, c ∈ s := by
    intro s
    induction s with
    | nil => intro n hn c hc; simp [splitSep] at hn; subst hn; simp at hc
    | cons x xs ih =>
      intro n hn c hc
      simp only [splitSep] at hn
      split at hn
      · rcases List.mem_cons.1 hn with hn | hn
        · subst hn; simp at hc
        · simp [ih n hn c hc]
      · cases hsp : splitSep xs with
        | nil => simp [hsp] at hn; subst hn; simp at hc; simp [hc]
        | cons p ps =>
          rw [hsp] at hn ih
          simp only at hn
          rcases List.mem_cons.1 hn with hn | hn
          · subst hn
            rcases List.mem_cons.1 hc with hc | hc
            · simp [hc]
            · simp [ih p (by simp) c hc]
          · simp [ih n (by simp [hn]) c hc]
  intro n hn c hc
  exact hb c (hsplit path n ((List.mem_filter.1 hn).1) c hc)

theorem getFile_of_represents {ops : List DirOp} {kids : List Entry} (hr : Represents ops kids)
    (ha : AsciiOps ops) (hroot : NonRoot ops) (path : Bytes) (habs : path.head? = some SEP)
    (h0 : 0 ∉ path) (hb : ∀ c ∈ path, c < 256) (hsc : StartsWithCd ops) :
    getFile kids path = .ok (lastWrite ops (components path)) := by
  have hne : path ≠ [] := by rintro rfl; simp at habs
  have hcb := components_bytes path hb
  obtain ⟨pv, hpv, _⟩ := pvNew_abs path habs
  have hfile : ∀ q, fileAt kids q = lastWrite ops q := by
    intro q
    unfold fileAt
    cases hl : lastWrite ops q with
    | some i => rw [hr.file q i hl]
    | none =>
      by_cases hf : IsFolder ops q
      · rw [hr.folder q hl hf]
      · rw [hr.missing q hl hf]
  unfold getFile
  simp only [hpv, Res.bind_ok]
  by_cases hk : kids.length = 0
  · rw [if_pos hk]
    have : kids = [] := List.length_eq_zero_iff.1 hk
    subst this
    rw [← hfile, fileAt, nodeAt_nil_kids]
    split <;> simp_all
  · rw [if_neg hk, if_neg (by simp [habs]), pvElems_eq path h0 hne]
    simp only [Res.bind_ok]
    have hgen := folderGetFile_eq (components path) kids hr.sorted hr.live (hr.ascii ha) hcb
    rw [hfile] at hgen
    rw [← hgen]
    unfold dirGetFile
    rw [if_neg hk]
    cases hc : components path with
    | nil => simp [folderGetFile]
    | cons c cs =>
      rw [hc] at hgen hcb
      simp only
      have hwlen : ∀ x, lastWrite ops [x] = none := by
        intro x
        rw [lastWrite_none]
        intro w hw heq
        -- every write happens below a non-empty folder
        have key : ∀ (l : List DirOp) (cur : List Bytes), cur ≠ [] → NonRoot l →
            ∀ w ∈ writesFrom cur l, 2 ≤ w.1.length := by
          intro l
          induction l with
          | nil => intro cur _ _ w hw; simp [writesFrom] at hw
          | cons op l ihl =>
            intro cur hcur hnr w hw
            have hnr' : NonRoot l := fun p hp => hnr p (by simp [hp])
            cases op with
            | cd p => exact ihl p (hnr p (by simp)) hnr' w hw
            | data n i =>
              simp only [writesFrom, List.mem_cons] at hw
              rcases hw with hw | hw
              · subst hw
                have := List.length_pos_iff.2 hcur
                simp; omega
              · exact ihl cur hcur hnr' w hw
        rcases hsc with h | ⟨p, t, h⟩
        · subst h; simp [writes, writesFrom] at hw
        · subst h
          have := key t p (hroot p (by simp)) (fun p' hp' => hroot p' (by simp [hp'])) w hw
          rw [heq] at this; simp at this
      rw [folderGetFile] at hgen ⊢
      rw [if_neg hk] at hgen ⊢
      cases hse : searchLookup c kids with
      | ok r =>
        cases r with
        | none => simp
        | some i =>
          simp only [hse] at hgen ⊢
          cases hki : kids[i]? with
          | none => simp
          | some e =>
            simp only [hki] at hgen ⊢
            by_cases hcs : cs = []
            · subst hcs
              rw [if_pos rfl, hgen, hwlen]
            · cases e <;> simp [hcs]
      | err => rfl
      | ub => rfl
      | abort => rfl

/-- C08: after any history without file/folder clashes and with 7-bit names, the lookup of
a path string returns what was last written under the components of that string, and
nothing if nothing was written there. -/
theorem c08_last_writer_wins (ops : List DirOp) (hnc : NoClash ops) (hsc : StartsWithCd ops)
    (ha : AsciiOps ops) (hroot : NonRoot ops) :
    ∃ st, dirRun {} ops = .ok st ∧
      ∀ path : Bytes, path.head? = some SEP → 0 ∉ path → (∀ c ∈ path, c < 256) →
        getFile st.kids path = .ok (lastWrite ops (components path)) := by
  obtain ⟨st, h1, h2⟩ := dir_history ops hnc hsc
  exact ⟨st, h1, fun path habs h0 hb => getFile_of_represents h2 ha hroot path habs h0 hb hsc⟩

/-- Why C08 needs 7-bit names (see C04): a history after which the last written variable is
not found. -/
theorem c08_non_ascii_not_found :
    let ops : List DirOp := [.cd [bs "a"], .data (bs "e") ⟨1, 1, 0, 0⟩,
      .data (bs "f") ⟨1, 1, 0, 0⟩, .data [195] ⟨1, 1, 0, 0⟩]
    (match dirRun {} ops with
      | .ok st => getFile st.kids (bs "/a/" ++ [195])
      | _ => .ub) = .ok none ∧
    lastWrite ops (components (bs "/a/" ++ [195])) = some ⟨1, 1, 0, 0⟩ := by
  decide +kernel

/-! ## C09 -/

theorem getChildren_of_represents {ops : List DirOp} {kids : List Entry}
    (hr : Represents ops kids) (ha : AsciiOps ops) (path : Bytes)
    (habs : path.head? = some SEP) (h0 : 0 ∉ path)
    (hcb : ∀ n ∈ components path, ∀ c ∈ n, c < 256) :
    (IsFolder ops (components path) → lastWrite ops (components path) = none →
      ∃ names, getChildren kids path = .ok (some names) ∧ names.Pairwise LexLt ∧
      ∀ n, n ∈ names ↔ (IsFolder ops (components path ++ [n]) ∨
        lastWrite ops (components path ++ [n]) ≠ none)) ∧
    (¬ IsFolder ops (components path) →
      getChildren kids path = .ok none ∨ getChildren kids path = .ok (some [])) := by
  have hne : path ≠ [] := by rintro rfl; simp at habs
  obtain ⟨pv, hpv, _⟩ := pvNew_abs path habs
  obtain ⟨r, g1, g2, g3⟩ := folderGetChildren_eq (components path) kids hr.sorted hr.live
    (hr.ascii ha) hcb
  have hdir : dirGetChildren kids (components path) = .ok (if kids.length = 0 then some [] else r) := by
    unfold dirGetChildren
    split
    · rfl
    · exact g1
  have hget : getChildren kids path =
      .ok ((if kids.length = 0 then some [] else r).map (fun ch => ch.map Entry.name)) := by
    unfold getChildren
    simp only [hpv, Res.bind_ok]
    rw [if_neg (by simp [habs]), pvElems_eq path h0 hne]
    simp only [Res.bind_ok, hdir, Res.pure_eq]
  obtain ⟨c1, c2⟩ := childrenAt_spec (components path) kids hr.sorted
  constructor
  · intro hf hl
    have hnode := hr.folder _ hl hf
    cases hch : childrenAt kids (components path) with
    | none => exact absurd hnode (c2 hch)
    | some ch =>
      obtain ⟨d1, d2, d3⟩ := c1 ch hch
      have hrr := g2 ch hch
      have hif : (if kids.length = 0 then some [] else r) = some ch := by
        split
        · rename_i hk
          have : kids = [] := List.length_eq_zero_iff.1 hk
          subst this
          cases hcp : components path with
          | nil => rw [hcp] at hch; simpa [childrenAt] using hch
          | cons c cs => rw [hcp] at hch; simp [childrenAt, findEntry] at hch
        · exact hrr
      refine ⟨ch.map Entry.name, by rw [hget, hif]; rfl, ?_, ?_⟩
      · rw [List.pairwise_map]; exact d1.sorted
      · intro n
        rw [d3 n]
        constructor
        · intro h
          by_cases hl' : lastWrite ops (components path ++ [n]) = none
          · by_cases hf' : IsFolder ops (components path ++ [n])
            · exact .inl hf'
            · exact absurd (hr.missing _ hl' hf') h
          · exact .inr hl'
        · intro h
          cases hl' : lastWrite ops (components path ++ [n]) with
          | some i => rw [hr.file _ _ hl']; simp
          | none =>
            rcases h with h | h
            · rw [hr.folder _ hl' h]; simp
            · exact absurd hl' h
  · intro hf
    have hnode : nodeAt kids (components path) ≠ some .folder := by
      cases hl : lastWrite ops (components path) with
      | some i => rw [hr.file _ _ hl]; simp
      | none => rw [hr.missing _ hl hf]; simp
    rw [hget]
    split
    · exact .inr rfl
    · cases hch : childrenAt kids (components path) with
      | some ch => exact absurd (c1 ch hch).2.1 hnode
      | none =>
        rcases g3 hch with h | ⟨h, _⟩
        · left; rw [h]; rfl
        · right; rw [h]; rfl

/-- C09: the children of a folder are exactly the names that occur directly below it in the
history, each once, in increasing order; a path that is not a folder has no children. -/
theorem c09_children_complete (ops : List DirOp) (hnc : NoClash ops) (hsc : StartsWithCd ops)
    (ha : AsciiOps ops) :
    ∃ st, dirRun {} ops = .ok st ∧
      ∀ path : Bytes, path.head? = some SEP → 0 ∉ path → (∀ c ∈ path, c < 256) →
        (IsFolder ops (components path) →
          ∃ names, getChildren st.kids path = .ok (some names) ∧ names.Pairwise LexLt ∧
            ∀ n, n ∈ names ↔ (IsFolder ops (components path ++ [n]) ∨
              lastWrite ops (components path ++ [n]) ≠ none)) ∧
        (¬ IsFolder ops (components path) →
          getChildren st.kids path = .ok none ∨ getChildren st.kids path = .ok (some [])) := by
  obtain ⟨st, h1, h2⟩ := dir_history ops hnc hsc
  refine ⟨st, h1, fun path habs h0 hb => ?_⟩
  have := getChildren_of_represents h2 ha path habs h0 (components_bytes path hb)
  refine ⟨fun hf => this.1 hf ?_, this.2⟩
  rw [lastWrite_none]
  intro w hw he
  exact hnc w hw (he ▸ hf)

/-! ## C10 -/

/-- C10: two absolute spellings with the same components give the same answer in every
directory. -/
theorem c10_only_components_matter (kids : List Entry) (p1 p2 : Bytes)
    (h1 : p1.head? = some SEP) (h2 : p2.head? = some SEP) (z1 : 0 ∉ p1) (z2 : 0 ∉ p2)
    (h : components p1 = components p2) :
    getFile kids p1 = getFile kids p2 ∧ getChildren kids p1 = getChildren kids p2 := by
  have n1 : p1 ≠ [] := by rintro rfl; simp at h1
  have n2 : p2 ≠ [] := by rintro rfl; simp at h2
  obtain ⟨v1, e1, _⟩ := pvNew_abs p1 h1
  obtain ⟨v2, e2, _⟩ := pvNew_abs p2 h2
  have q1 := pvElems_eq p1 z1 n1
  have q2 := pvElems_eq p2 z2 n2
  constructor
  · simp [getFile, e1, e2, h1, h2, q1, q2, h]
  · simp [getChildren, e1, e2, h1, h2, q1, q2, h]

/-! ## C11 -/

/-- C11 is violated: writing a variable whose name is already a folder releases the name of
the folder; the next search that looks at it reads freed memory. -/
theorem c11_file_over_folder_is_ub :
    (match dirRun {} [.cd [bs "a", bs "b"], .cd [bs "a"], .data (bs "b") ⟨1, 4, 0, 0⟩] with
      | .ok st => getFile st.kids (bs "/a/b")
      | _ => .ok none) = .ub := by
  decide +kernel

/-- C11, proved part: (1) a folder is never created over a file: the insertion returns no
folder and no path changes its meaning; (2) histories without clashes complete, and leave a
tree in which every name is live. Missing: a file over a folder, where the claim is false
(`c11_file_over_folder_is_ub`). -/
theorem c11_clash_partial :
    (∀ (kids : List Entry) (path : List Bytes), SortedTree kids → LiveTree kids →
      Blocked kids path →
      ∃ kids', insertFolder kids path = .ok (kids', false) ∧ SortedTree kids' ∧ LiveTree kids' ∧
        ∀ q, nodeAt kids' q = nodeAt kids q) ∧
    (∀ ops, NoClash ops → StartsWithCd ops →
      ∃ st, dirRun {} ops = .ok st ∧ SortedTree st.kids ∧ LiveTree st.kids) := by
  constructor
  · intro kids path hs hl hb
    obtain ⟨kids', b, h1, h2, h3, h4, _, h6, _⟩ := insertFolder_spec path kids hs hl
    cases b with
    | true => exact absurd hb (h4.1 rfl)
    | false => exact ⟨kids', h1, h2, h3, h6 rfl⟩
  · intro ops hnc hsc
    obtain ⟨st, h1, h2⟩ := dir_history ops hnc hsc
    exact ⟨st, h1, h2.sorted, h2.live⟩

/-! ## Non-vacuity -/

/-- A history that meets all hypotheses of C08, C09 and C11 (two folders, an overwritten
variable). -/
def sampleOps : List DirOp :=
  [.cd [bs "nodout", bs "metadata"], .data (bs "ids") ⟨4, 8, 0, 30⟩,
   .cd [bs "nodout", bs "d000001"], .data (bs "time") ⟨10, 8, 0, 60⟩,
   .data (bs "time") ⟨10, 8, 1, 90⟩]

theorem sampleOps_noClash : NoClash sampleOps := by
  intro w hw hf
  simp only [sampleOps, writes, writesFrom] at hw
  rcases hf with h | ⟨p, h, hp⟩
  · simp at hw; rcases hw with rfl | rfl | rfl <;> simp at h
  · simp only [sampleOps, List.mem_cons, DirOp.cd.injEq, reduceCtorEq, false_or,
      List.not_mem_nil, or_false] at h
    simp only [List.mem_cons, List.not_mem_nil, or_false] at hw
    rcases h with rfl | rfl <;> rcases hw with rfl | rfl | rfl <;> revert hp <;> decide +kernel

example : NoClash sampleOps ∧ StartsWithCd sampleOps ∧ AsciiOps sampleOps ∧ NonRoot sampleOps ∧
    lastWrite sampleOps (components (bs "/nodout//d000001/time/")) = some ⟨10, 8, 1, 90⟩ ∧
    (match dirRun {} sampleOps with
      | .ok st => getFile st.kids (bs "/nodout//d000001/time/")
      | _ => .ub) = .ok (some ⟨10, 8, 1, 90⟩) ∧
    (match dirRun {} sampleOps with
      | .ok st => getChildren st.kids (bs "/nodout")
      | _ => .ub) = .ok (some [bs "d000001", bs "metadata"]) := by
  refine ⟨sampleOps_noClash, .inr ⟨_, _, rfl⟩, ?_, ?_, by decide +kernel, by decide +kernel,
    by decide +kernel⟩
  · intro op hop
    simp only [sampleOps, List.mem_cons, List.not_mem_nil, or_false] at hop
    rcases hop with rfl | rfl | rfl | rfl | rfl <;> simp only <;> decide +kernel
  · intro p hp
    simp [sampleOps] at hp
    rcases hp with rfl | rfl <;> simp

-- a tree and path satisfying the hypotheses of the first part of C11 (test)
example : Blocked [.folder (bs "a") false [.file (bs "b") ⟨1, 1, 0, 0⟩]] [bs "a", bs "b", bs "c"] :=
  ⟨[bs "a", bs "b"], ⟨1, 1, 0, 0⟩, by decide +kernel, by decide +kernel⟩

-- two spellings as in C10 (test)
example : components (bs "/a/b") = components (bs "//a//b/") ∧ bs "/a/b" ≠ bs "//a//b/" := by
  decide +kernel

end Dyna
