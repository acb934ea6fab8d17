import Verif.BinoutSimple
import Verif.Props.BinoutRead
/-!
# Properties of simple paths (C61)
-/

namespace Dyna

/-! ## Specification -/

/-- The text of the absolute path with these components. -/
def render (q : List Bytes) : Bytes := q.flatMap (fun c => SEP :: c)

/-- The first time step below a folder. -/
structure FirstStep (files : List SrcFile) (loc : List Bytes) (d : Bytes) : Prop where
  step : IsStepName d
  dir : IsDir files (loc ++ [d])
  first : ∀ d', IsStepName d' → IsDir files (loc ++ [d']) → d' = d ∨ LexLt d d'

/-- From the location `loc` the component `c` of a simple path leads to the location `loc'`; the
real path is extended by `shown`; `timed` tells whether a time step has been entered. The
component is looked for in the folder itself, then in its `metadata` folder, then in the first
time step. -/
inductive Enter (files : List SrcFile) (loc : List Bytes) (c : Bytes) :
    (loc' shown : List Bytes) → (timed : Bool) → Prop
  | direct : Present files (loc ++ [c]) → Enter files loc c (loc ++ [c]) [c] false
  | metadata : ¬ Present files (loc ++ [c]) → Present files (loc ++ [bs "metadata", c]) →
      Enter files loc c (loc ++ [bs "metadata", c]) [bs "metadata", c] false
  | step (d : Bytes) : ¬ Present files (loc ++ [c]) → ¬ Present files (loc ++ [bs "metadata", c]) →
      FirstStep files loc d → Present files (loc ++ [d, c]) →
      Enter files loc c (loc ++ [d, c]) [c] true

/-- The components of a simple path lead from `loc` to `target`. -/
inductive Walk (files : List SrcFile) : (loc comps shown target : List Bytes) → (timed : Bool) → Prop
  | nil (loc) : Walk files loc [] [] loc false
  | cons {loc c cs loc' s t s' target t'} : Enter files loc c loc' s t →
      Walk files loc' cs s' target t' → Walk files loc (c :: cs) (s ++ s') target (t || t')

/-- The type of the variable at a location, the invalid type (255) if it is a folder. -/
def typeAt (files : List SrcFile) (q : List Bytes) : Nat :=
  match lastVar (allVars files) q with
  | some (ty, _) => ty
  | none => 255

/-- No variable is called like a folder for metadata or a time step. -/
def PlainNames (files : List SrcFile) : Prop :=
  ∀ q n, lastVar (allVars files) (q ++ [n]) ≠ none → n ≠ bs "metadata" ∧ ¬ IsStepName n

/-! ## Lemmas -/

theorem Enter.unique {files loc c l1 s1 t1 l2 s2 t2} (h1 : Enter files loc c l1 s1 t1)
    (h2 : Enter files loc c l2 s2 t2) : l1 = l2 ∧ s1 = s2 ∧ t1 = t2 := by
  cases h1 with
  | direct a =>
    cases h2 with
    | direct => simp
    | metadata b => exact absurd a b
    | step d b => exact absurd a b
  | metadata a b =>
    cases h2 with
    | direct c => exact absurd c a
    | metadata => simp
    | step d x y => exact absurd b y
  | step d a b hf hp =>
    cases h2 with
    | direct c => exact absurd c a
    | metadata x y => exact absurd y b
    | step d' _ _ hf' hp' =>
      have : d = d' := by
        rcases hf.first d' hf'.step hf'.dir with h | h
        · exact h.symm
        · rcases hf'.first d hf.step hf.dir with h' | h'
          · exact h'
          · exact absurd (h.trans h') (LexLt.irrefl d)
      subst this; simp

theorem Walk.unique {files loc cs s1 g1 t1} (h1 : Walk files loc cs s1 g1 t1) :
    ∀ {s2 g2 t2}, Walk files loc cs s2 g2 t2 → s1 = s2 ∧ g1 = g2 ∧ t1 = t2 := by
  induction h1 with
  | nil => intro s2 g2 t2 h2; cases h2; simp
  | cons e w ih =>
    intro s2 g2 t2 h2
    cases h2 with
    | cons e' w' =>
      obtain ⟨rfl, rfl, rfl⟩ := e.unique e'
      obtain ⟨rfl, rfl, rfl⟩ := ih w'
      simp


/-- A folder of the tree with its invariants. -/
structure At (files : List SrcFile) (kids : List Entry) (loc : List Bytes) (ch : List Entry) : Prop where
  here : childrenAt kids loc = some ch
  sorted : SortedTree ch
  live : LiveTree ch
  ascii : AsciiTree ch

theorem At.sub {files kids loc ch n fr k} (h : At files kids loc ch)
    (hf : findEntry ch n = some (.folder n fr k)) : At files kids (loc ++ [n]) k := by
  have hm := (findEntry_some hf).1
  exact ⟨childrenAt_snoc loc kids h.here hf, h.sorted.sub hm, (h.live.sub hm).2, h.ascii.sub hm⟩

theorem At.dir {files kids loc ch} (ht : TreeOf files kids) (h : At files kids loc ch) {n : Bytes}
    (hn : IsDir files (loc ++ [n])) : ∃ fr k, findEntry ch n = some (.folder n fr k) := by
  obtain ⟨fr, k, m1, _⟩ := child_folder ht h.here hn
  exact ⟨fr, k, findEntry_mem h.sorted.sorted m1⟩

theorem At.var {files kids loc ch} (ht : TreeOf files kids) (h : At files kids loc ch) {n : Bytes}
    {ty pl} (hn : lastVar (allVars files) (loc ++ [n]) = some (ty, pl)) :
    ∃ i, findEntry ch n = some (.file n i) ∧ i.varType = ty := by
  obtain ⟨i, h1, h2, _⟩ := ht.var _ _ _ hn
  rw [nodeAt_append loc kids ch [n] h.here] at h1
  simp only [nodeAt] at h1
  cases hf : findEntry ch n with
  | none => rw [hf] at h1; simp at h1
  | some e =>
    rw [hf] at h1
    have hname := (findEntry_some hf).2
    cases e with
    | file m j =>
      simp at h1 hname
      subst hname; subst h1
      exact ⟨_, rfl, h2⟩
    | folder m fr k => simp at h1

theorem At.none {files kids loc ch} (ht : TreeOf files kids) (h : At files kids loc ch) {n : Bytes}
    (hn : ¬ Present files (loc ++ [n])) : findEntry ch n = none := by
  have h1 := ht.missing _ hn
  rw [nodeAt_append loc kids ch [n] h.here] at h1
  simp only [nodeAt] at h1
  cases hf : findEntry ch n with
  | none => rfl
  | some e => rw [hf] at h1; cases e <;> simp at h1

/-- Nothing is below a variable. -/
theorem var_leaf {files kids} (ht : TreeOf files kids) {q : List Bytes} {c : Bytes} {cs : List Bytes}
    (hv : lastVar (allVars files) q ≠ none) : ¬ Present files (q ++ c :: cs) := by
  obtain ⟨⟨ty, pl⟩, hpl⟩ := Option.ne_none_iff_exists'.1 hv
  obtain ⟨i, hi, _⟩ := ht.var _ _ _ hpl
  have hnone : ∀ (q : List Bytes) (kids : List Entry), nodeAt kids q = some (.file i) →
      nodeAt kids (q ++ c :: cs) = none := by
    intro q
    induction q with
    | nil => intro kids h; simp [nodeAt] at h
    | cons x xs ih =>
      intro kids h
      simp only [nodeAt, List.cons_append] at h ⊢
      cases hf : findEntry kids x with
      | none => rfl
      | some e =>
        rw [hf] at h
        cases e with
        | file m j => simp
        | folder m fr k => exact ih k h
  intro hp
  have hn := hnone q kids hi
  rcases hp with hp | hp
  · rw [ht.dir _ hp] at hn; cases hn
  · obtain ⟨⟨ty', pl'⟩, hpl'⟩ := Option.ne_none_iff_exists'.1 hp
    obtain ⟨j, hj, _⟩ := ht.var _ _ _ hpl'
    rw [hj] at hn; cases hn

/-- A folder is not a variable. -/
theorem dir_not_var {files kids} (ht : TreeOf files kids) {q : List Bytes} (hd : IsDir files q) :
    lastVar (allVars files) q = none := by
  by_contra hv
  obtain ⟨⟨ty, pl⟩, hpl⟩ := Option.ne_none_iff_exists'.1 hv
  obtain ⟨i, hi, _⟩ := ht.var _ _ _ hpl
  rw [ht.dir q hd] at hi; cases hi

theorem lookup_eq {ch : List Entry} (hs : SortedTree ch) (hl : LiveTree ch) (ha : AsciiTree ch)
    {c : Bytes} (hc : ∀ x ∈ c, x < 256) (hne : ch.length ≠ 0) :
    (∃ i e, searchLookup c ch = .ok (some i) ∧ ch[i]? = some e ∧ findEntry ch c = some e) ∨
    (searchLookup c ch = .ok none ∧ findEntry ch c = none) :=
  searchLookup_spec c hs.sorted (fun x hx => hl.nameOk hx) (fun x hx => ha.names hx) hc
    (by intro h; subst h; simp at hne)

theorem searchIn_folder {ch : List Entry} (hs : SortedTree ch) (hl : LiveTree ch) (ha : AsciiTree ch)
    {c : Bytes} (hc : ∀ x ∈ c, x < 256) (n : Bytes) (fr : Bool) :
    searchIn (some (.folder n fr ch)) c = .ok (findEntry ch c) := by
  unfold searchIn
  by_cases h : ch.length = 0
  · have : ch = [] := List.length_eq_zero_iff.1 h
    subst this; simp [findEntry]
  · simp only [h, if_false]
    rcases lookup_eq hs hl ha hc h with ⟨i, e, h1, h2, h3⟩ | ⟨h1, h2⟩
    · rw [h1, h3]; simp only [Res.bind_ok, h2]
    · rw [h1, h2]; rfl

theorem lastMeta_eq {ch : List Entry} (hs : SortedTree ch) :
    lastMeta ch = findEntry ch (bs "metadata") := by
  unfold lastMeta
  cases h : ch.reverse.find? (fun e => isMetadata e.name) with
  | none =>
    symm
    rw [findEntry_none]
    intro e he hn
    have := List.find?_eq_none.1 h e (by simpa using he)
    simp [isMetadata, hn] at this
  | some e =>
    have h1 := List.find?_some h
    have h2 := List.mem_of_find?_eq_some h
    simp only [isMetadata, beq_iff_eq] at h1
    have := findEntry_mem hs.sorted (List.mem_reverse.1 h2)
    rw [h1] at this
    exact this.symm

theorem firstDEntry_eq (ch : List Entry) : firstDEntry ch = ch.find? (fun e => isDString e.name) := by
  unfold firstDEntry
  induction ch with
  | nil => rfl
  | cons e es ih =>
    unfold firstD
    by_cases h : isDString e.name = true
    · simp [h]
    · simp only [h]
      simp only [List.find?_cons, h]
      rw [← ih]
      cases firstD es <;> simp

/-- The entry found by going through the children is the first time step. -/
theorem firstDEntry_spec {files kids loc ch} (ht : TreeOf files kids) (h : At files kids loc ch)
    (hp : PlainNames files) :
    (∃ d fr k, firstDEntry ch = some (.folder d fr k) ∧ findEntry ch d = some (.folder d fr k) ∧
      FirstStep files loc d) ∨
    (firstDEntry ch = none ∧ ∀ d, ¬ FirstStep files loc d) := by
  rw [firstDEntry_eq]
  cases hf : ch.find? (fun e => isDString e.name) with
  | none =>
    right
    refine ⟨rfl, fun d hd => ?_⟩
    obtain ⟨fr, k, h1⟩ := h.dir ht hd.dir
    have := List.find?_eq_none.1 hf _ (findEntry_some h1).1
    exact this ((isDString_iff _).2 hd.step)
  | some e =>
    left
    obtain ⟨h1, as, b, rfl, h2⟩ := List.find?_eq_some_iff_append.1 hf
    have hst := (isDString_iff _).1 h1
    have hm : e ∈ as ++ e :: b := by simp
    have hfe := findEntry_mem h.sorted.sorted hm
    rcases child_cases ht h.here hm with ⟨hd, n, fr, k, he⟩ | ⟨hv, _⟩
    · subst he
      refine ⟨n, fr, k, rfl, hfe, hst, hd, ?_⟩
      intro d' hd' hdir'
      obtain ⟨fr', k', h3⟩ := h.dir ht hdir'
      obtain ⟨hm', _⟩ := findEntry_some h3
      rcases List.mem_append.1 hm' with hm' | hm'
      · have := h2 _ hm'
        simp only [Entry.name, Bool.not_eq_true'] at this
        exact absurd ((isDString_iff _).2 hd') (by simp [this])
      · rcases List.mem_cons.1 hm' with hm' | hm'
        · simp at hm'; exact .inl hm'.1
        · right
          have := (List.pairwise_append.1 h.sorted.sorted).2.1
          exact (List.pairwise_cons.1 this).1 _ hm'
    · exact absurd hst (hp _ _ hv).2

theorem render_append (a b : List Bytes) : render (a ++ b) = render a ++ render b := by
  simp [render]

/-- What the loop must deliver for the walk from a location. -/
def LoopOk (files : List SrcFile) (loc cs : List Bytes) (real : Bytes) (t : Bool)
    (r : Res (Option Bytes × Nat × Bool)) : Prop :=
  (∃ shown target t', Walk files loc cs shown target t' ∧
    r = .ok (some (real ++ render shown), typeAt files target, t || t')) ∨
  ((¬ ∃ shown target t', Walk files loc cs shown target t') ∧ ∃ t', r = .ok (none, 255, t'))

theorem LoopOk.step {files loc c loc' s t0 cs real t r} (he : Enter files loc c loc' s t0)
    (h : LoopOk files loc' cs (real ++ render s) (t || t0) r) :
    LoopOk files loc (c :: cs) real t r := by
  rcases h with ⟨shown, target, t', hw, hr⟩ | ⟨hno, hr⟩
  · refine .inl ⟨s ++ shown, target, t0 || t', .cons he hw, ?_⟩
    rw [hr, render_append, ← List.append_assoc, Bool.or_assoc]
  · refine .inr ⟨?_, hr⟩
    rintro ⟨shown, target, t', hw⟩
    cases hw with
    | cons he' hw' =>
      obtain ⟨rfl, rfl, rfl⟩ := he.unique he'
      exact hno ⟨_, _, _, hw'⟩

/-- A variable has been entered: the path must end. -/
theorem LoopOk.leaf {files kids} (ht : TreeOf files kids) {loc cs real t ty pl}
    (hv : lastVar (allVars files) loc = some (ty, pl)) :
    LoopOk files loc cs real t
      (if cs ≠ [] then .ok (none, typeInvalid, t) else .ok (some real, ty, t)) ∧
    LoopOk files loc cs real true
      (if cs ≠ [] then .ok (none, typeInvalid, t) else .ok (some real, ty, true)) := by
  have hno : ∀ c cs', ¬ ∃ shown target t', Walk files loc (c :: cs') shown target t' := by
    rintro c cs' ⟨shown, target, t', hw⟩
    have hv' : lastVar (allVars files) loc ≠ none := by rw [hv]; simp
    cases hw with
    | cons he _ =>
      cases he with
      | direct a => exact var_leaf ht hv' a
      | metadata _ a => exact var_leaf ht hv' a
      | step d _ _ _ a => exact var_leaf ht hv' a
  have hty : typeAt files loc = ty := by simp [typeAt, hv]
  cases cs with
  | nil =>
    constructor
    · exact .inl ⟨[], loc, false, .nil _, by simp [render, hty]⟩
    · exact .inl ⟨[], loc, false, .nil _, by simp [render, hty]⟩
  | cons c cs' =>
    exact ⟨.inr ⟨hno c cs', t, by simp [typeInvalid]⟩, .inr ⟨hno c cs', t, by simp [typeInvalid]⟩⟩

theorem present_cases {files : List SrcFile} {q : List Bytes} (h : Present files q) :
    IsDir files q ∨ ∃ ty pl, lastVar (allVars files) q = some (ty, pl) := by
  rcases h with h | h
  · exact .inl h
  · obtain ⟨⟨ty, pl⟩, h⟩ := Option.ne_none_iff_exists'.1 h
    exact .inr ⟨ty, pl, h⟩

theorem metadata_bytes : ∀ x ∈ bs "metadata", x < 256 := by decide +kernel

theorem simpleLoop_spec {files kids} (ht : TreeOf files kids) (hp : PlainNames files) :
    ∀ (cs loc : List Bytes) (ch : List Entry) (real : Bytes) (t : Bool),
    IsDir files loc → At files kids loc ch → (∀ c ∈ cs, ∀ x ∈ c, x < 256) →
    LoopOk files loc cs real t (simpleLoop ch cs real t) := by
  intro cs
  induction cs with
  | nil =>
    intro loc ch real t hd h _
    refine .inl ⟨[], loc, false, .nil _, ?_⟩
    simp [simpleLoop, render, typeAt, dir_not_var ht hd, typeInvalid]
  | cons c cs ih =>
    intro loc ch real t hd h hb
    have hcb := hb c (by simp)
    have hbs : ∀ c ∈ cs, ∀ x ∈ c, x < 256 := fun c hc => hb c (by simp [hc])
    -- nothing can be entered
    have hfail : ¬ Present files (loc ++ [c]) → ¬ Present files (loc ++ [bs "metadata", c]) →
        (∀ d, FirstStep files loc d → ¬ Present files (loc ++ [d, c])) →
        LoopOk files loc (c :: cs) real t (.ok (none, typeInvalid, t)) := by
      intro h1 h2 h3
      refine .inr ⟨?_, t, rfl⟩
      rintro ⟨shown, target, t', hw⟩
      cases hw with
      | cons he _ =>
        cases he with
        | direct a => exact h1 a
        | metadata _ a => exact h2 a
        | step d _ _ a b => exact h3 d a b
    unfold simpleLoop
    by_cases hlen : ch.length = 0
    · rw [if_pos hlen]
      have hnil : ch = [] := List.length_eq_zero_iff.1 hlen
      subst hnil
      have hno : ∀ n cs', ¬ Present files (loc ++ n :: cs') := by
        intro n cs' hpr
        have h1 := nodeAt_append loc kids [] (n :: cs') h.here
        simp only [nodeAt, findEntry, List.find?_nil] at h1
        rcases present_cases hpr with hpr | ⟨ty, pl, hpr⟩
        · rw [ht.dir _ hpr] at h1; cases h1
        · obtain ⟨i, hi, _⟩ := ht.var _ _ _ hpr
          rw [hi] at h1; cases h1
      exact hfail (hno _ _) (hno _ _) (fun d _ => hno _ _)
    · rw [if_neg hlen]
      by_cases hpd : Present files (loc ++ [c])
      · have henter := Enter.direct hpd
        apply LoopOk.step henter
        rcases present_cases hpd with hdir | ⟨ty, pl, hvar⟩
        · obtain ⟨fr, k, hf⟩ := h.dir ht hdir
          rcases lookup_eq h.sorted h.live h.ascii hcb hlen with ⟨i, e, e1, e2, e3⟩ | ⟨_, e2⟩
          · rw [hf] at e3; cases e3
            rw [e1]
            simp only [Res.bind_ok, e2]
            have := ih (loc ++ [c]) k (real ++ SEP :: c) t hdir (h.sub hf) hbs
            simpa [render] using this
          · rw [hf] at e2; cases e2
        · obtain ⟨info, hf, hty⟩ := h.var ht hvar
          rcases lookup_eq h.sorted h.live h.ascii hcb hlen with ⟨i, e, e1, e2, e3⟩ | ⟨_, e2⟩
          · rw [hf] at e3; cases e3
            rw [e1]
            simp only [Res.bind_ok, e2]
            rw [hty]
            have := (LoopOk.leaf ht (cs := cs) (real := real ++ SEP :: c) (t := t) hvar).1
            simpa [render] using this
          · rw [hf] at e2; cases e2
      · have hnone := h.none ht hpd
        rcases lookup_eq h.sorted h.live h.ascii hcb hlen with ⟨i, e, _, _, e3⟩ | ⟨e1, _⟩
        · rw [hnone] at e3; cases e3
        rw [e1]
        simp only [Res.bind_ok]
        -- the metadata folder
        have hmeta : (∃ e, searchIn (lastMeta ch) c = .ok (some e) ∧ ∃ m, At files kids (loc ++ [bs "metadata"]) m ∧
              findEntry m c = some e ∧ Present files (loc ++ [bs "metadata", c])) ∨
            (searchIn (lastMeta ch) c = .ok none ∧ ¬ Present files (loc ++ [bs "metadata", c])) := by
          rw [lastMeta_eq h.sorted]
          by_cases hpm : Present files (loc ++ [bs "metadata"])
          · rcases present_cases hpm with hdir | ⟨ty, pl, hvar⟩
            · obtain ⟨fr, k, hf⟩ := h.dir ht hdir
              have hsub := h.sub hf
              rw [hf, searchIn_folder hsub.sorted hsub.live hsub.ascii hcb]
              have e0 : loc ++ [bs "metadata", c] = loc ++ [bs "metadata"] ++ [c] := by simp
              by_cases hpc : Present files (loc ++ [bs "metadata", c])
              · left
                have hpc' := hpc
                rw [e0] at hpc'
                rcases present_cases hpc' with hdir' | ⟨ty, pl, hvar⟩
                · obtain ⟨fr', k', hf'⟩ := hsub.dir ht hdir'
                  exact ⟨_, by rw [hf'], k, hsub, hf', hpc⟩
                · obtain ⟨i', hf', _⟩ := hsub.var ht hvar
                  exact ⟨_, by rw [hf'], k, hsub, hf', hpc⟩
              · right
                refine ⟨?_, hpc⟩
                rw [e0] at hpc
                rw [hsub.none ht hpc]
            · exact absurd rfl (hp _ _ (by rw [hvar]; simp)).1
          · right
            rw [h.none ht hpm]
            refine ⟨rfl, ?_⟩
            intro hpc
            have e0 : loc ++ [bs "metadata", c] = (loc ++ [bs "metadata"]) ++ [c] := by simp
            have h1 := nodeAt_append loc kids ch [bs "metadata", c] h.here
            simp only [nodeAt, h.none ht hpm] at h1
            rcases present_cases hpc with hpr | ⟨ty, pl, hpr⟩
            · rw [ht.dir _ hpr] at h1; cases h1
            · obtain ⟨i, hi, _⟩ := ht.var _ _ _ hpr
              rw [hi] at h1; cases h1
        rcases hmeta with ⟨e, s1, m, hAt, hfe, hpm⟩ | ⟨s1, hpm⟩
        · rw [s1]
          simp only [Res.bind_ok]
          apply LoopOk.step (Enter.metadata hpd hpm)
          have e0 : loc ++ [bs "metadata", c] = loc ++ [bs "metadata"] ++ [c] := by simp
          have hpm' := hpm
          rw [e0] at hpm'
          rcases present_cases hpm' with hdir' | ⟨ty, pl, hvar⟩
          · obtain ⟨fr', k', hf'⟩ := hAt.dir ht hdir'
            rw [hfe] at hf'; cases hf'
            have := ih (loc ++ [bs "metadata"] ++ [c]) k' (real ++ SEP :: (bs "metadata" ++ SEP :: c)) t
              hdir' (hAt.sub hfe) hbs
            simpa [render] using this
          · obtain ⟨i', hf', hty⟩ := hAt.var ht hvar
            rw [hfe] at hf'; cases hf'
            simp only [hty]
            have := (LoopOk.leaf ht (cs := cs) (real := real ++ SEP :: (bs "metadata" ++ SEP :: c)) (t := t) hvar).1
            simpa [render] using this
        · rw [s1]
          simp only [Res.bind_ok]
          rcases firstDEntry_spec ht h hp with ⟨d, fr, k, f1, f2, f3⟩ | ⟨f1, f2⟩
          · rw [f1]
            have hsub := h.sub f2
            rw [searchIn_folder hsub.sorted hsub.live hsub.ascii hcb]
            have e0 : loc ++ [d, c] = loc ++ [d] ++ [c] := by simp
            by_cases hps : Present files (loc ++ [d, c])
            · apply LoopOk.step (Enter.step d hpd hpm f3 hps)
              rw [e0] at hps ⊢
              rcases present_cases hps with hdir' | ⟨ty, pl, hvar⟩
              · obtain ⟨fr', k', hf'⟩ := hsub.dir ht hdir'
                rw [hf']
                simp only [Res.bind_ok]
                have := ih (loc ++ [d] ++ [c]) k' (real ++ SEP :: c) true hdir' (hsub.sub hf') hbs
                simpa [render] using this
              · obtain ⟨i', hf', hty⟩ := hsub.var ht hvar
                rw [hf']
                simp only [Res.bind_ok, hty]
                have := (LoopOk.leaf ht (cs := cs) (real := real ++ SEP :: c) (t := t) hvar).2
                simpa [render] using this
            · have hps' := hps
              rw [e0] at hps'
              rw [hsub.none ht hps']
              simp only [Res.bind_ok]
              apply hfail hpd hpm
              intro d' hd'
              have : d' = d := by
                rcases f3.first d' hd'.step hd'.dir with h | h
                · exact h
                · rcases hd'.first d f3.step f3.dir with h' | h'
                  · exact h'.symm
                  · exact absurd (h.trans h') (LexLt.irrefl d)
              subst this
              exact hps
          · rw [f1]
            simp only [searchIn, Res.bind_ok]
            exact hfail hpd hpm (fun d hd => absurd hd (f2 d))


/-- No variable is stored directly below the root. -/
theorem no_root_var {files : List SrcFile} (h : GoodSet files) (c : Bytes) :
    lastVar (allVars files) [c] = none := by
  have hw := writesFrom_allOps (files.map SrcFile.content) files 0 [] h.ok (by simp)
  have hd := lastWrite_describe _ _ _ hw.1 [c]
  rw [← hd, Option.map_eq_none_iff, lastWrite_none]
  intro w hw heq
  have key : ∀ (l : List DirOp) (cur : List Bytes), cur ≠ [] → NonRoot l →
      ∀ w ∈ writesFrom cur l, 2 ≤ w.1.length := by
    intro l
    induction l with
    | nil => intro cur _ _ w hw; simp [writesFrom] at hw
    | cons op l ihl =>
      intro cur hcur hnr w hw
      have hnr' : NonRoot l := fun p hp => hnr p (by simp [hp])
      cases op with
      | cd p => exact ihl p (hnr p (by simp)) hnr' w hw
      | data n i =>
        simp only [writesFrom, List.mem_cons] at hw
        rcases hw with hw | hw
        · subst hw
          have := List.length_pos_iff.2 hcur
          simp; omega
        · exact ihl cur hcur hnr' w hw
  have hroot := nonRoot_allOps files h.ok
  rcases allOps_starts files 0 h.ok with h | ⟨p, t, h⟩
  · rw [h] at hw; simp [writes, writesFrom] at hw
  · rw [h] at hw hroot
    have := key t p (hroot p (by simp)) (fun p' hp' => hroot p' (by simp [hp'])) w hw
    rw [heq] at this; simp at this

/-- The conclusion of C61 for a path, in terms of the walk through the files. -/
def SimpleOk (files : List SrcFile) (kids : List Entry) (path : Bytes) : Prop :=
  (components path = [] → simplePathToReal kids path = .ok (some (bs "/"), 255, false)) ∧
  ∀ c cs, components path = c :: cs →
    (∀ shown target timed, Present files [c] → Walk files [c] cs shown target timed →
      simplePathToReal kids path = .ok (some (render (c :: shown)), typeAt files target, timed)) ∧
    ((¬ ∃ shown target timed, Present files [c] ∧ Walk files [c] cs shown target timed) →
      ∃ timed, simplePathToReal kids path = .ok (none, 255, timed))

theorem simple_tree {files kids} (h : GoodSet files) (ht : TreeOf files kids) (hp : PlainNames files)
    (path : Bytes) (hne : path ≠ []) (h0 : 0 ∉ path) (hb : ∀ c ∈ path, c < 256) :
    SimpleOk files kids path := by
  have hel := pvElems_eq path h0 hne
  refine ⟨?_, ?_⟩
  · intro hc
    unfold simplePathToReal
    rw [hel, hc]
    rfl
  · intro c cs hc
    have hcb : ∀ n ∈ c :: cs, ∀ x ∈ n, x < 256 := by
      intro n hn x hx
      rw [← hc] at hn
      exact hb x ((components_mem hn).2.2 x hx)
    have hAt : At files kids [] kids := ⟨rfl, ht.sorted, ht.live, ht.ascii⟩
    have hsp : simplePathToReal kids path =
        (if kids.length = 0 then .ok (none, typeInvalid, false)
        else do
          match ← searchLookup c kids with
          | none => .ok (none, typeInvalid, false)
          | some i =>
            match kids[i]? with
            | none => .ub
            | some (.file n _) =>
              if cs ≠ [] then .ok (none, typeInvalid, false)
              else .ok (some (SEP :: n), typeInvalid, false)
            | some (.folder n _ ch) => simpleLoop ch cs (SEP :: n) false) := by
      unfold simplePathToReal
      rw [hel, hc]
      rfl
    rw [hsp]
    by_cases hpc : Present files [c]
    · have hdir : IsDir files ([] ++ [c]) := by
        rcases present_cases hpc with h1 | ⟨ty, pl, h1⟩
        · exact h1
        · rw [no_root_var h c] at h1; cases h1
      obtain ⟨fr, k, hf⟩ := hAt.dir ht hdir
      have hlen : kids.length ≠ 0 := by
        intro h0
        have : kids = [] := List.length_eq_zero_iff.1 h0
        subst this; simp [findEntry] at hf
      rw [if_neg hlen]
      have hl := simpleLoop_spec ht hp cs ([] ++ [c]) k (SEP :: c) false hdir (hAt.sub hf)
        (fun n hn => hcb n (by simp [hn]))
      rcases lookup_eq ht.sorted ht.live ht.ascii (hcb c (by simp)) hlen with ⟨i, e, e1, e2, e3⟩ | ⟨_, e2⟩
      · rw [hf] at e3; cases e3
        rw [e1]
        simp only [Res.bind_ok, e2]
        rcases hl with ⟨shown, target, t', hw, hr⟩ | ⟨hno, t', hr⟩
        · refine ⟨?_, fun hno => absurd ⟨shown, target, t', hpc, hw⟩ hno⟩
          intro shown' target' t'' _ hw'
          obtain ⟨rfl, rfl, rfl⟩ := hw.unique hw'
          rw [hr]
          simp [render]
        · refine ⟨fun shown' target' t'' _ hw' => absurd ⟨_, _, _, hw'⟩ hno, fun _ => ⟨t', hr⟩⟩
      · rw [hf] at e2; cases e2
    · refine ⟨fun _ _ _ h1 => absurd h1 hpc, fun _ => ⟨false, ?_⟩⟩
      by_cases hlen : kids.length = 0
      · rw [if_pos hlen]; rfl
      · rw [if_neg hlen]
        have hf := hAt.none ht (n := c) hpc
        rcases lookup_eq ht.sorted ht.live ht.ascii (hcb c (by simp)) hlen with ⟨i, e, e1, e2, e3⟩ | ⟨e1, _⟩
        · rw [hf] at e3; cases e3
        · rw [e1]; rfl

/-! ## C61 -/

/-- C61. On an opened set of well formed files in which no variable is called `metadata` or like a
time step, `binout_simple_path_to_real` returns the real path, the type and the timed flag that
the walk along the components gives (each component is looked for in the folder, then in its
`metadata`, then in its first time step), and the null pointer exactly if there is no such walk. -/
theorem c61_simple_path (files : List SrcFile) (h : GoodSet files) (hne : files ≠ [])
    (hp : PlainNames files) :
    ∃ n, ∀ fuel, n ≤ fuel → ∀ pattern, ∃ b,
      binoutOpen fuel pattern (files.map (fun s => (s.name, some s.content))) = .ok (some b) ∧
      ∀ path : Bytes, path ≠ [] → 0 ∉ path → (∀ c ∈ path, c < 256) →
        (components path = [] → simplePathToReal b.kids path = .ok (some (bs "/"), 255, false)) ∧
        ∀ c cs, components path = c :: cs →
          (∀ shown target timed, Present files [c] → Walk files [c] cs shown target timed →
            simplePathToReal b.kids path =
              .ok (some (render (c :: shown)), typeAt files target, timed)) ∧
          ((¬ ∃ shown target timed, Present files [c] ∧ Walk files [c] cs shown target timed) →
            ∃ timed, simplePathToReal b.kids path = .ok (none, 255, timed)) := by
  obtain ⟨n, hn⟩ := open_good files h hne
  refine ⟨n, fun fuel hf pattern => ?_⟩
  obtain ⟨kids, k1, k2⟩ := hn fuel hf pattern
  exact ⟨_, k1, fun path a1 a2 a3 => simple_tree h (treeOf_represents h k2) hp path a1 a2 a3⟩

theorem present_prefix {files kids} (ht : TreeOf files kids) {q : List Bytes} {r : List Bytes}
    (hr : r ≠ []) (h : Present files (q ++ r)) : IsDir files q := by
  have hk : nodeAt kids (q ++ r) ≠ none := by
    rcases present_cases h with h | ⟨ty, pl, h⟩
    · rw [ht.dir _ h]; simp
    · obtain ⟨i, hi, _⟩ := ht.var _ _ _ h
      rw [hi]; simp
  by_contra hd
  have hpq : Present files q := by
    by_contra hnp
    have h1 := ht.missing _ hnp
    have key : ∀ (q : List Bytes) (kids : List Entry), nodeAt kids q = none →
        nodeAt kids (q ++ r) = none := by
      intro q
      induction q with
      | nil => intro kids h; simp [nodeAt] at h
      | cons x xs ih =>
        intro kids h
        simp only [nodeAt, List.cons_append] at h ⊢
        cases hf : findEntry kids x with
        | none => rfl
        | some e =>
          rw [hf] at h
          cases e with
          | file m j => simp [hr]
          | folder m fr k => exact ih k h
    exact hk (key q kids h1)
  rcases hpq with hpq | hpq
  · exact hd hpq
  · cases r with
    | nil => exact hr rfl
    | cons x xs => exact var_leaf ht hpq h

/-- A path that exists is walked directly. -/
theorem walk_direct {files kids} (ht : TreeOf files kids) : ∀ (cs loc : List Bytes),
    Present files (loc ++ cs) → Walk files loc cs cs (loc ++ cs) false := by
  intro cs
  induction cs with
  | nil => intro loc _; simpa using Walk.nil loc
  | cons c cs ih =>
    intro loc h
    have h' : Present files (loc ++ [c] ++ cs) := by simpa using h
    have hc : Present files (loc ++ [c]) := by
      by_cases hcs : cs = []
      · subst hcs; simpa using h
      · exact .inl (present_prefix ht hcs h')
    have := Walk.cons (Enter.direct hc) (ih (loc ++ [c]) h')
    simpa using this

/-- Without entering a time step the real path is the location. -/
theorem Walk.target_eq {files loc cs shown target t} (h : Walk files loc cs shown target t) :
    t = false → target = loc ++ shown := by
  induction h with
  | nil => intro _; simp
  | cons e w ih =>
    intro ht
    simp only [Bool.or_eq_false_iff] at ht
    obtain ⟨ht1, ht2⟩ := ht
    have := ih ht2
    cases e with
    | direct => simp [this]
    | metadata => simp [this]
    | step => cases ht1

theorem Walk.shown_mem {files loc cs shown target t} (h : Walk files loc cs shown target t) :
    ∀ n ∈ shown, n ∈ cs ∨ n = bs "metadata" := by
  induction h with
  | nil => simp
  | cons e w ih =>
    intro n hn
    rcases List.mem_append.1 hn with hn | hn
    · cases e with
      | direct => simp at hn; simp [hn]
      | metadata => simp at hn; rcases hn with hn | hn <;> simp [hn]
      | step => simp at hn; simp [hn]
    · rcases ih n hn with h | h
      · simp [h]
      · exact .inr h

theorem components_render (q : List Bytes) (h : ∀ n ∈ q, n ≠ [] ∧ SEP ∉ n) :
    components (render q) = q := by
  induction q with
  | nil => simp [render, components_nil]
  | cons c cs ih =>
    have hc := h c (by simp)
    have hcs := ih (fun n hn => h n (by simp [hn]))
    have e : render (c :: cs) = SEP :: (c ++ render cs) := by simp [render]
    rw [e, components_sep]
    cases cs with
    | nil => simp [render, components_noSep c hc.2 hc.1]
    | cons d ds =>
      have e2 : render (d :: ds) = SEP :: (d ++ render ds) := by simp [render]
      rw [e2] at hcs ⊢
      rw [components_append_sep c _ hc.2 hc.1]
      rw [components_sep] at hcs
      rw [hcs]

/-- C61. A path that exists in the files (as a variable or as a folder) is its own real path, up to
the spelling of the separators, with the type of the variable, and not timed. -/
theorem c61_existing_path (files : List SrcFile) (h : GoodSet files) (hne : files ≠ [])
    (hp : PlainNames files) :
    ∃ n, ∀ fuel, n ≤ fuel → ∀ pattern, ∃ b,
      binoutOpen fuel pattern (files.map (fun s => (s.name, some s.content))) = .ok (some b) ∧
      ∀ path : Bytes, path ≠ [] → 0 ∉ path → (∀ c ∈ path, c < 256) →
        Present files (components path) → components path ≠ [] →
        simplePathToReal b.kids path =
          .ok (some (render (components path)), typeAt files (components path), false) := by
  obtain ⟨n, hn⟩ := open_good files h hne
  refine ⟨n, fun fuel hf pattern => ?_⟩
  obtain ⟨kids, k1, k2⟩ := hn fuel hf pattern
  have ht := treeOf_represents h k2
  refine ⟨_, k1, fun path a1 a2 a3 hpr hc => ?_⟩
  have hs := (simple_tree h ht hp path a1 a2 a3).2
  cases hcc : components path with
  | nil => exact absurd hcc hc
  | cons c cs =>
    rw [hcc] at hpr
    have hpc : Present files [c] := by
      by_cases hcs : cs = []
      · subst hcs; exact hpr
      · exact .inl (present_prefix ht hcs (q := [c]) (by simpa using hpr))
    exact (hs c cs hcc).1 cs ([c] ++ cs) false hpc (walk_direct ht cs [c] (by simpa using hpr))

/-- C61. If the result is not timed and has a type, then the real path is the path of a variable of
this type: `binout_get_type_id` gives the type and reading the real path as this type gives the
payload. -/
theorem c61_real_path_is_variable (files : List SrcFile) (h : GoodSet files) (hne : files ≠ [])
    (hp : PlainNames files) :
    ∃ n, ∀ fuel, n ≤ fuel → ∀ pattern, ∃ b,
      binoutOpen fuel pattern (files.map (fun s => (s.name, some s.content))) = .ok (some b) ∧
      ∀ path : Bytes, path ≠ [] → 0 ∉ path → (∀ c ∈ path, c < 256) →
        ∀ real ty, simplePathToReal b.kids path = .ok (some real, ty, false) → ty ≠ 255 →
          real.head? = some SEP ∧ getTypeId b.kids real = .ok ty ∧
          ∃ payload, lastVar (allVars files) (components real) = some (ty, payload) ∧
            (payload ≠ [] → binoutRead b real ty = .ok (payload, payload.length / typeSize ty)) := by
  obtain ⟨n, hn⟩ := open_good files h hne
  obtain ⟨m, hm⟩ := read_good files h hne
  refine ⟨max n m, fun fuel hf pattern => ?_⟩
  obtain ⟨kids, k1, k2⟩ := hn fuel (by omega) pattern
  obtain ⟨b', m1, m2⟩ := hm fuel (by omega) pattern
  have hbb : b' = ⟨kids, files.map (fun s => some s.content), none⟩ := by
    rw [k1] at m1; simpa using m1.symm
  subst hbb
  have ht := treeOf_represents h k2
  refine ⟨_, k1, fun path a1 a2 a3 real ty hr hty => ?_⟩
  simp only at hr
  have hs := simple_tree h ht hp path a1 a2 a3
  cases hcc : components path with
  | nil =>
    rw [hs.1 hcc] at hr
    simp at hr
    exact absurd hr.2.symm hty
  | cons c cs =>
    obtain ⟨s1, s2⟩ := hs.2 c cs hcc
    by_cases hw : ∃ shown target timed, Present files [c] ∧ Walk files [c] cs shown target timed
    · obtain ⟨shown, target, timed, hpc, hw⟩ := hw
      rw [s1 shown target timed hpc hw] at hr
      simp only [Res.ok.injEq, Prod.mk.injEq, Option.some.injEq] at hr
      obtain ⟨r1, r2, r3⟩ := hr
      have htg := hw.target_eq r3
      have hnames : ∀ x ∈ c :: shown, x ∈ components path ∨ x = bs "metadata" := by
        intro x hx
        rw [hcc]
        rcases List.mem_cons.1 hx with rfl | hx
        · simp
        · rcases hw.shown_mem x hx with h | h
          · simp [h]
          · exact .inr h
      have hgood : ∀ x ∈ c :: shown, x ≠ [] ∧ SEP ∉ x := by
        intro x hx
        rcases hnames x hx with h | rfl
        · exact ⟨(components_mem h).1, (components_mem h).2.1⟩
        · decide +kernel
      have hcomp : components real = c :: shown := by rw [← r1]; exact components_render _ hgood
      have habs : real.head? = some SEP := by rw [← r1]; simp [render]
      have hbytes : ∀ x ∈ real, x ≠ 0 ∧ x < 256 := by
        rw [← r1]
        intro x hx
        simp only [render, List.mem_flatMap, List.mem_cons] at hx
        obtain ⟨n, hn, hx⟩ := hx
        rcases hx with rfl | hx
        · decide +kernel
        · rcases hnames n (by simpa using hn) with h | rfl
          · have := (components_mem h).2.2 x hx
            exact ⟨fun e => a2 (e ▸ this), a3 x this⟩
          · revert x; decide +kernel
      have h0r : 0 ∉ real := fun hx => (hbytes 0 hx).1 rfl
      have hbr : ∀ x ∈ real, x < 256 := fun x hx => (hbytes x hx).2
      rw [htg] at r2
      simp only [List.cons_append, List.nil_append] at r2
      unfold typeAt at r2
      rw [← hcomp] at r2
      cases hv : lastVar (allVars files) (components real) with
      | none => rw [hv] at r2; exact absurd r2.symm hty
      | some x =>
        obtain ⟨ty', pl⟩ := x
        rw [hv] at r2
        simp only at r2
        subst r2
        refine ⟨habs, ?_, pl, rfl, ?_⟩
        · obtain ⟨o, o1, o2, _⟩ := open_lookup files h k2 real habs h0r hbr
          rw [hv] at o2
          unfold getTypeId
          rw [o1]
          cases o with
          | none => simp at o2
          | some i =>
            simp only [Option.map_some, describe, Option.some.injEq, Prod.mk.injEq] at o2
            simp [o2.1]
        · intro hpl
          have := m2 real ty' habs h0r hbr
          rw [hv] at this
          simpa [hpl] using this
    · obtain ⟨t, hno⟩ := s2 hw
      rw [hno] at hr
      simp at hr

/-- C61. A variable that is stored in the time steps of a folder (and neither in the folder nor in
its `metadata`): the simple path gives the real path folder/variable, the type the variable
has in the first time step and the timed flag; with the real path and the type the values of all the
time steps are read, as in C19. -/
theorem c61_timed_variable (files : List SrcFile) (h : GoodSet files) (hne : files ≠ [])
    (hp : PlainNames files) :
    ∃ n, ∀ fuel, n ≤ fuel → ∀ pattern, ∃ b,
      binoutOpen fuel pattern (files.map (fun s => (s.name, some s.content))) = .ok (some b) ∧
      ∀ (path : Bytes) (q : List Bytes) (v : Bytes) (steps : List Bytes) (payload : Bytes → Bytes)
        (size ty w : Nat), TypeWidth ty w →
        path ≠ [] → 0 ∉ path → (∀ c ∈ path, c < 256) →
        components path = q ++ [v] → q ≠ [] → IsDir files q →
        StepsOf files q steps → steps ≠ [] →
        (∀ n, Present files (q ++ [n]) → n.head? = some 100 → IsStepName n) →
        ¬ Present files (q ++ [v]) → ¬ Present files (q ++ [bs "metadata", v]) →
        (∀ d ∈ steps, ∀ d' ∈ steps, ∀ n,
          Present files (q ++ [d, n]) ↔ Present files (q ++ [d', n])) →
        (∀ d ∈ steps, lastVar (allVars files) (q ++ [d, v]) = some (ty, payload d)) →
        (∀ d ∈ steps, (payload d).length = size) → size / w ≠ 0 →
        simplePathToReal b.kids path = .ok (some (render (q ++ [v])), ty, true) ∧
        readTimed b (render (q ++ [v])) ty =
          .ok (((steps.map payload).flatten).map some, size / w, steps.length) := by
  obtain ⟨n, hn⟩ := open_good files h hne
  obtain ⟨m, hm⟩ := c19_read_timed_partial files h hne
  refine ⟨max n m, fun fuel hf pattern => ?_⟩
  obtain ⟨kids, k1, k2⟩ := hn fuel (by omega) pattern
  obtain ⟨b', m1, m2⟩ := hm fuel (by omega) pattern
  have hbb : b' = ⟨kids, files.map (fun s => some s.content), none⟩ := by
    rw [k1] at m1; simpa using m1.symm
  subst hbb
  have ht := treeOf_represents h k2
  refine ⟨_, k1, fun path q v steps payload size ty w hw a1 a2 a3 hcomp hq hdir hst hsne hd hmiss
    hmeta hsame hvar hsz hty => ?_⟩
  have hmem : ∀ x ∈ q ++ [v], x ∈ components path := by rw [hcomp]; exact fun _ h => h
  have hgood : ∀ x ∈ q ++ [v], x ≠ [] ∧ SEP ∉ x := fun x hx =>
    ⟨(components_mem (hmem x hx)).1, (components_mem (hmem x hx)).2.1⟩
  have hcr : components (render (q ++ [v])) = q ++ [v] := components_render _ hgood
  have hbytes : ∀ x ∈ render (q ++ [v]), x ≠ 0 ∧ x < 256 := by
    intro x hx
    unfold render at hx
    rw [List.mem_flatMap] at hx
    obtain ⟨n, hn, hx⟩ := hx
    rcases List.mem_cons.1 hx with rfl | hx
    · decide +kernel
    · have := (components_mem (hmem n hn)).2.2 x hx
      exact ⟨fun e => a2 (e ▸ this), a3 x this⟩
  constructor
  · cases q with
    | nil => exact absurd rfl hq
    | cons c cs =>
      have hpc : Present files [c] := by
        by_cases hcs : cs = []
        · subst hcs; exact .inl hdir
        · exact .inl (present_prefix ht hcs (q := [c]) (.inl (by simpa using hdir)))
      have w1 := walk_direct ht cs [c] (.inl (by simpa using hdir))
      -- the first of the time steps
      cases steps with
      | nil => exact absurd rfl hsne
      | cons d ds =>
        have hfs : FirstStep files (c :: cs) d := by
          obtain ⟨x1, x2⟩ := (hst.names d).1 (by simp)
          refine ⟨x1, x2, fun d' y1 y2 => ?_⟩
          rcases List.mem_cons.1 ((hst.names d').2 ⟨y1, y2⟩) with h | h
          · exact .inl h
          · exact .inr ((List.pairwise_cons.1 hst.sorted).1 d' h)
        have hvd := hvar d (by simp)
        have hpv : Present files (c :: cs ++ [d, v]) := .inr (by rw [hvd]; simp)
        have hwalk : Walk files [c] (cs ++ [v]) (cs ++ [v]) (c :: cs ++ [d, v]) true := by
          have key : ∀ (cs loc shown target : List Bytes) (t : Bool) (s2 t2 : List Bytes) (b2 : Bool)
              (r : List Bytes), Walk files loc cs shown target t → Walk files target r s2 t2 b2 →
              Walk files loc (cs ++ r) (shown ++ s2) t2 (t || b2) := by
            intro cs loc shown target t s2 t2 b2 r h1
            induction h1 with
            | nil => intro h2; simpa using h2
            | cons e _ ih =>
              intro h2
              have := Walk.cons e (ih h2)
              simpa [Bool.or_assoc] using this
          have w2 : Walk files (c :: cs) [v] [v] (c :: cs ++ [d, v]) true :=
            Walk.cons (Enter.step d hmiss hmeta hfs hpv) (Walk.nil _)
          have := key cs [c] cs _ false _ _ _ [v] w1 (by simpa using w2)
          simpa using this
        have hs := (simple_tree h ht hp path a1 a2 a3).2 c (cs ++ [v]) (by simpa using hcomp)
        have := hs.1 _ _ _ hpc hwalk
        rw [this]
        have hta : typeAt files (c :: cs ++ [d, v]) = ty := by unfold typeAt; rw [hvd]
        rw [hta]
        rfl
  · refine m2 (render (q ++ [v])) q v steps payload size ty w hw ?_ ?_ ?_ hcr hq hdir hst hsne ?_ hmiss hsame
      (fun d hd => ⟨ty, hvar d hd⟩) hsz hty
    · cases q with
      | nil => exact absurd rfl hq
      | cons c cs => simp [render]
    · exact fun hx => (hbytes 0 hx).1 rfl
    · exact fun x hx => (hbytes x hx).2
    · intro n hn hh
      have hsn := hd n hn hh
      refine ⟨hsn, ?_⟩
      by_contra hv
      exact (hp _ _ hv).2 hsn

/-- C61, witness: with a variable called `metadata` the search uses a pointer that has never been
set. -/
theorem c61_variable_named_metadata :
    let kids : List Entry := [.folder (bs "a") false [.file (bs "metadata") ⟨1, 4, 0, 0⟩]]
    simplePathToReal kids (bs "a/x") = .ub ∧
    simplePathToReal kids (bs "a/metadata") = .ok (some (bs "/a/metadata"), 1, false) := by
  decide +kernel

/-- C61, witness: the timed flag stays set if nothing has been found after a time step. -/
theorem c61_timed_flag_without_result :
    let kids : List Entry := [.folder (bs "a") false [.folder (bs "d1") false
      [.folder (bs "s") false [.file (bs "x") ⟨1, 1, 0, 0⟩]]]]
    simplePathToReal kids (bs "a/s/x") = .ok (some (bs "/a/s/x"), 1, true) ∧
    simplePathToReal kids (bs "a/s/y") = .ok (none, 255, true) := by
  decide +kernel

/-! ## A concrete case -/

theorem sample_plain : PlainNames [sampleFile] := by
  intro q n h
  rw [sample_vars] at h
  by_contra hcon
  apply h
  unfold lastVar
  simp only [List.reverse_cons, List.reverse_nil, List.nil_append, List.cons_append,
    Option.map_eq_none_iff, List.find?_eq_none, List.mem_cons, List.not_mem_nil, or_false,
    decide_eq_true_eq]
  have key : ∀ (a b c : Bytes), [a, b, c] = q ++ [n] → n = c := by
    intro a b c h
    have := congrArg List.getLast? h
    simpa using this.symm
  rintro x (rfl | rfl | rfl) hx <;> have e := key _ _ _ hx <;> subst e <;> apply hcon <;>
    refine ⟨by decide +kernel, fun hs => ?_⟩ <;>
    exact absurd ((isDString_iff _).2 hs) (by decide +kernel)

/-- `nodout/ids` of the sample file is the variable in the metadata, `nodout/x` is timed. -/
example : ∃ n, ∀ fuel, n ≤ fuel → ∀ pattern, ∃ b,
    binoutOpen fuel pattern [(sampleFile.name, some sampleFile.content)] = .ok (some b) ∧
    simplePathToReal b.kids (bs "nodout//ids/") = .ok (some (bs "/nodout/metadata/ids"), 4, false) := by
  obtain ⟨n, hn⟩ := c61_simple_path [sampleFile] sampleFile_good (by simp) sample_plain
  refine ⟨n, fun fuel hf pattern => ?_⟩
  obtain ⟨b, b1, b2⟩ := hn fuel hf pattern
  refine ⟨b, b1, ?_⟩
  have hs := (b2 (bs "nodout//ids/") (by decide +kernel) (by decide +kernel) (by decide +kernel)).2
    (bs "nodout") [bs "ids"] (by decide +kernel)
  have hdir : IsDir [sampleFile] [bs "nodout"] :=
    .inr ⟨[bs "nodout", bs "metadata"], by decide +kernel, by decide +kernel⟩
  have hno : ¬ Present [sampleFile] ([bs "nodout"] ++ [bs "ids"]) := by
    rintro (h | h)
    · rcases sample_dir2 _ h with h | h | h <;> exact absurd h (by decide +kernel)
    · exact h (sample_var2 _)
  have hw := hs.1 [bs "metadata", bs "ids"] [bs "nodout", bs "metadata", bs "ids"] false (.inl hdir)
    (Walk.cons (Enter.metadata hno (.inr (by decide +kernel))) (Walk.nil _))
  rw [hw]
  decide +kernel

end Dyna
