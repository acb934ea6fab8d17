import Verif.Props.BinoutCalls
import Verif.Props.BinoutTimedError
/-!
# Property C97: the error string of `binout_read_timed` tells why there are no data
-/

namespace Dyna

open BinoutCalls

/-- Specification: the text for a path that leads (in the directory) to `node`, if no data are found. -/
def searchText (path : Bytes) : Option Node → Bytes
  | some .folder => bs "The variable \"" ++ path ++ bs "\" is either metadata (not timed) or does not exist"
  | some (.file _) => bs "The variable \"" ++ path ++ bs "\" is not timed"
  | none => bs "The variable \"" ++ path ++ bs "\" does not exist"

theorem searchWhyIn_eq (path : Bytes) (cs : List Bytes) : ∀ (kids : List Entry), SortedTree kids → LiveTree kids →
    AsciiTree kids → (∀ n ∈ cs, ∀ c ∈ n, c < 256) →
    searchWhyIn path kids cs = searchText path (nodeAt kids cs) ∧
    (nodeAt kids cs ≠ none → searchTimedIn kids cs = .err) := by
  induction cs with
  | nil => intro kids _ _ _ _; exact ⟨rfl, fun _ => rfl⟩
  | cons c cs ih =>
    intro kids hs hl ha hq
    rw [searchWhyIn, searchTimedIn]
    by_cases h0 : kids.length = 0
    · rw [if_pos h0, if_pos h0]
      have : kids = [] := by simpa using h0
      subst this
      exact ⟨rfl, fun _ => rfl⟩
    rw [if_neg h0, if_neg h0]
    rcases searchLookup_spec c hs.sorted (fun e he => hl.nameOk he) (fun e he => ha.names he)
      (hq c (by simp)) (by intro e; simp [e] at h0) with ⟨i, e, h1, h2, h3⟩ | ⟨h1, h2⟩
    · rw [h1]
      simp only [h2, nodeAt, h3]
      cases e with
      | file n info =>
        simp only
        by_cases hc : cs = []
        · rw [if_pos hc, if_pos hc]; exact ⟨rfl, fun _ => trivial⟩
        · rw [if_neg hc, if_neg hc]; exact ⟨rfl, fun _ => trivial⟩
      | folder n fr ch =>
        have hm := (findEntry_some h3).1
        simp only
        exact ih ch (hs.sub hm) (hl.sub hm).2 (ha.sub hm) (fun n hn => hq n (by simp [hn]))
    · rw [h1]
      simp only [nodeAt, h2]
      exact ⟨rfl, fun h => absurd rfl h⟩

/-- Auxiliary: the text and the search, depending on the directory only. -/
theorem searchWhy_eq {kids : List Entry} (hs : SortedTree kids) (hl : LiveTree kids) (ha : AsciiTree kids)
    {path : Bytes} (habs : path.head? = some SEP) (h0 : 0 ∉ path) (hb : ∀ n ∈ components path, ∀ c ∈ n, c < 256) :
    (kids = [] → searchWhy kids path = bs "The binout directory is empty" ∧ searchTimed kids path = .err) ∧
    (kids ≠ [] → components path = [] → searchWhy kids path = bs "The path \"" ++ path ++ bs "\" is too short" ∧
      searchTimed kids path = .err) ∧
    (kids ≠ [] → ∀ c cs, components path = c :: cs →
      (nodeAt kids (c :: cs) = some .folder ∨ cs ≠ [] → searchWhy kids path = searchText path (nodeAt kids (c :: cs))) ∧
      (nodeAt kids (c :: cs) = none → searchWhy kids path = searchText path none) ∧
      (∀ i, nodeAt kids [c] = some (.file i) → searchWhy kids path = searchText path none) ∧
      (nodeAt kids (c :: cs) ≠ none → searchTimed kids path = .err)) := by
  obtain ⟨pv, e1, e2, e3, e4⟩ := pvNew_abs path habs
  unfold searchWhy searchTimed
  refine ⟨fun h => ?_, fun h hc => ?_, fun h c cs hc => ?_⟩
  · subst h
    exact ⟨rfl, rfl⟩
  · have hz : kids.length ≠ 0 := by simpa using h
    rw [if_neg hz, if_neg hz, e1]
    simp only [Res.bind_ok]
    rw [pvRest_eq path h0 _ pv e3 (by omega), e4, hc]
    exact ⟨rfl, rfl⟩
  · have hz : kids.length ≠ 0 := by simpa using h
    rw [if_neg hz, if_neg hz, e1]
    simp only [Res.bind_ok]
    rw [pvRest_eq path h0 _ pv e3 (by omega), e4, hc]
    rw [hc] at hb
    simp only [Res.bind_ok]
    rcases searchLookup_spec c hs.sorted (fun e he => hl.nameOk he) (fun e he => ha.names he)
      (hb c (by simp)) h with ⟨i, e, h1, h2, h3⟩ | ⟨h1, h2⟩
    · rw [h1]
      simp only [h2]
      cases e with
      | file n info =>
        simp only [nodeAt, h3]
        refine ⟨?_, fun _ => rfl, fun _ _ => rfl, fun _ => trivial⟩
        rintro (h | h)
        · split at h <;> cases h
        · rw [if_neg h]; rfl
      | folder n fr ch =>
        have hm := (findEntry_some h3).1
        simp only [nodeAt, h3]
        have := searchWhyIn_eq path cs ch (hs.sub hm) (hl.sub hm).2 (ha.sub hm) (fun n hn => hb n (by simp [hn]))
        refine ⟨fun _ => this.1, fun h => by rw [this.1, h], fun i h => by simp at h, this.2⟩
    · rw [h1]
      simp only [nodeAt, h2]
      exact ⟨fun _ => rfl, fun _ => rfl, fun i h => by simp at h, fun h => absurd rfl h⟩

/-- Specification: the texts for a variable that exists in the first time step. -/
def StepText (path text : Bytes) : Prop :=
  text = bs "The files of \"" ++ path ++ bs "\" are empty" ∨
  text = bs "Failed to seek to the data of \"" ++ path ++ bs "\"" ∨
  ∃ k : Nat, text = bs "The structure of variable \"" ++ path ++ bs "\" is invalid. Time Step " ++ bs (toString k) ++
      bs " differs from the first time step" ∨
    text = bs "Failed to read time step " ++ bs (toString k) ++ bs " of \"" ++ path ++ bs "\""

/-- What is wrong with the first bad time step `k`, and the text for it. `steps` are the entries of the time steps, the
first `k` of them can be read. Part of the specification, models no code. -/
def BadStep (files : List (Option Bytes)) (path name : Bytes) (p : List Nat) (steps : List Entry) (k0 : Nat)
    (text : Bytes) : Prop :=
  ∃ k d, steps[k]? = some d ∧
    (∀ j, j < k → ∃ e n info data, steps[j]? = some e ∧ openTimedEntry e (some name) p = .ok (some (n, info)) ∧
      readInfo files info = .ok data) ∧
    ((openTimedEntry d (some name) p = .ok none ∧
      text = bs "The structure of variable \"" ++ path ++ bs "\" is invalid. Time Step " ++ bs (toString (k0 + k)) ++
        bs " differs from the first time step") ∨
     ∃ n info, openTimedEntry d (some name) p = .ok (some (n, info)) ∧ readInfo files info = .err ∧
      ((2 ^ 63 ≤ info.filePos ∧ text = bs "Failed to seek to the data of \"" ++ path ++ bs "\"") ∨
       (info.filePos < 2 ^ 63 ∧
        text = bs "Failed to read time step " ++ bs (toString (k0 + k)) ++ bs " of \"" ++ path ++ bs "\"")))

theorem stepsWhy_bad (files : List (Option Bytes)) (path name : Bytes) (p : List Nat) : ∀ (steps : List Entry) (k : Nat)
    (buf : List (Option Byte)), readSteps files name p steps k buf = .err →
    BadStep files path name p steps k (stepsWhy files path name p steps k) := by
  intro steps
  induction steps with
  | nil => intro k buf h; simp [readSteps] at h
  | cons d ds ih =>
    intro k buf h
    rw [readSteps] at h
    rw [stepsWhy]
    cases ho : openTimedEntry d (some name) p with
    | ub => rw [ho] at h; cases h
    | abort => rw [ho] at h; cases h
    | err => exact absurd ho (openTimedEntry_ne_err _ _ _)
    | ok o =>
      cases o with
      | none =>
        exact ⟨0, d, rfl, fun j hj => absurd hj (by omega), .inl ⟨ho, rfl⟩⟩
      | some x =>
        obtain ⟨n, info⟩ := x
        rw [ho] at h
        simp only [Res.bind_ok] at h
        dsimp only
        cases hr : readInfo files info with
        | ub => rw [hr] at h; cases h
        | abort => rw [hr] at h; cases h
        | err =>
          refine ⟨0, d, rfl, fun j hj => absurd hj (by omega), .inr ⟨n, info, ho, hr, ?_⟩⟩
          dsimp only
          by_cases hp : info.filePos ≥ u64 / 2
          · rw [if_pos hp]
            exact .inl ⟨hp, rfl⟩
          · rw [if_neg hp]
            exact .inr ⟨Nat.lt_of_not_le hp, rfl⟩
        | ok data =>
          rw [hr] at h
          simp only [Res.bind_ok] at h
          obtain ⟨buf', hw⟩ : ∃ buf', readSteps files name p ds (k + 1) buf' = .err := by
            cases hw : writeAt buf (k * info.size) data with
            | ub => rw [hw] at h; cases h
            | abort => rw [hw] at h; cases h
            | err => unfold writeAt at hw; split at hw <;> cases hw
            | ok buf' => rw [hw] at h; exact ⟨buf', h⟩
          obtain ⟨j, e, h1, h2, h3⟩ := ih (k + 1) buf' hw
          refine ⟨j + 1, e, by simpa using h1, ?_, ?_⟩
          · intro i hi
            cases i with
            | zero => exact ⟨d, n, info, data, rfl, ho, hr⟩
            | succ i =>
              obtain ⟨a, b, c, g⟩ := h2 i (by omega)
              exact ⟨a, b, c, by simpa using g⟩
          · rw [show k + (j + 1) = k + 1 + j by omega]
            exact h3

/-- C97, the time steps: if the search finds the variable in the first time step but there are no data, the text says
that the variable has no values, or names the first time step that is bad and what is wrong with it. -/
theorem c97_steps (b b' : BinFile) (path : Bytes) (ty : Nat) (ds steps : List Entry) (p : List Nat) (name : Bytes)
    (info : FileInfo) (hs : searchTimed b.kids path = .ok (ds, p)) (ht : timedHead ds p = .ok (steps, name, info))
    (h : sessTimed b path ty = .ok (none, b')) :
    ∃ text, b'.error = some text ∧
      (info.size / typeSize ty = 0 → text = bs "The files of \"" ++ path ++ bs "\" are empty") ∧
      (info.size / typeSize ty ≠ 0 → BadStep b.files path name p steps 0 text) := by
  have hr := ((c92_timed_error_or_data b b' path ty none h).1).1 rfl
  unfold sessTimed at h
  rw [hr] at h
  simp only [newError] at h
  split at h
  · cases h
  simp only [Res.bind_ok, Res.ok.injEq, Prod.mk.injEq, true_and] at h
  subst h
  refine ⟨_, rfl, ?_⟩
  rw [readTimed_eq, hs] at hr
  simp only [Res.bind_ok, ht] at hr
  simp only [timedWhy, hs, ht]
  constructor
  · intro hz
    rw [if_pos hz]
  · intro hz
    rw [if_neg hz] at hr ⊢
    cases hb : readSteps b.files name p steps 0 (List.replicate (info.size * steps.length) none) with
    | ok v => rw [hb] at hr; cases hr
    | ub => rw [hb] at hr; cases hr
    | abort => rw [hb] at hr; cases hr
    | err => exact stepsWhy_bad _ _ _ _ _ _ _ hb

theorem BadStep.text {files path name p steps k text} (h : BadStep files path name p steps k text) : StepText path text := by
  obtain ⟨j, d, _, _, h | ⟨n, info, _, _, h | h⟩⟩ := h
  · exact .inr (.inr ⟨_, .inl h.2⟩)
  · exact .inr (.inl h.2)
  · exact .inr (.inr ⟨_, .inr h.2⟩)

/-- C97: if `binout_read_timed` returns no data, the error string tells the cause. -/
theorem c97_cause (files : List SrcFile) (h : GoodSet files) (hne : files ≠ [])
    (hstep : ∀ q n, IsStepName n → lastVar (allVars files) (q ++ [n]) = none) :
    ∃ n, ∀ fuel, n ≤ fuel → ∀ pattern, ∃ b,
      binoutOpen fuel pattern (files.map (fun s => (s.name, some s.content))) = .ok (some b) ∧
      ∀ (path : Bytes) (ty : Nat) (b' : BinFile), path.head? = some SEP → 0 ∉ path → (∀ c ∈ path, c < 256) →
        sessTimed b path ty = .ok (none, b') →
        ∃ text, b'.error = some text ∧
          ((∀ c, ¬ Present files [c]) → text = bs "The binout directory is empty") ∧
          ((∃ c, Present files [c]) →
            (components path = [] → text = bs "The path \"" ++ path ++ bs "\" is too short") ∧
            (components path ≠ [] → IsDir files (components path) →
              text = bs "The variable \"" ++ path ++ bs "\" is either metadata (not timed) or does not exist") ∧
            (lastVar (allVars files) (components path) ≠ none → 2 ≤ (components path).length →
              text = bs "The variable \"" ++ path ++ bs "\" is not timed") ∧
            (lastVar (allVars files) (components path) ≠ none → (components path).length = 1 →
              text = bs "The variable \"" ++ path ++ bs "\" does not exist") ∧
            (¬ Present files (components path) →
              text = bs "The variable \"" ++ path ++ bs "\" does not exist" ∨
              (StepText path text ∧ ∃ pre suf suf' d, components path = pre ++ suf ∧ pre ≠ [] ∧ suf'.Sublist suf ∧
                IsStepName d ∧ lastVar (allVars files) (pre ++ d :: suf') ≠ none))) := by
  obtain ⟨n, hn⟩ := open_good files h hne
  refine ⟨n, fun fuel hf pattern => ?_⟩
  obtain ⟨kids, k1, k2⟩ := hn fuel hf pattern
  refine ⟨_, k1, fun path ty b' habs h0 hb hsess => ?_⟩
  have ht := treeOf_represents h k2
  have hvar : ∀ q i, nodeAt kids q = some (.file i) → lastVar (allVars files) q ≠ none := by
    intro q i hq
    have hp : Present files q := by
      by_contra hnp
      rw [ht.missing _ hnp] at hq
      cases hq
    rcases hp with hp | hp
    · rw [ht.dir _ hp] at hq; cases hq
    · exact hp
  have hsf : NoStepFiles kids := by
    intro q m hm i hi
    exact hvar _ i hi (hstep q m hm)
  have hr := ((c92_timed_error_or_data _ b' path ty none hsess).1).1 rfl
  obtain ⟨w1, w2, w3⟩ := searchWhy_eq ht.sorted ht.live ht.ascii habs h0 (components_bytes path hb)
  have htext : b'.error = some (timedWhy ⟨kids, files.map (fun s => some s.content), none⟩ path ty) := by
    unfold sessTimed at hsess
    rw [hr] at hsess
    simp only [newError] at hsess
    split at hsess
    · cases hsess
    simp only [Res.bind_ok, Res.ok.injEq, Prod.mk.injEq, true_and] at hsess
    rw [← hsess]
  have hbad : searchTimed kids path = .err →
      timedWhy ⟨kids, files.map (fun s => some s.content), none⟩ path ty = searchWhy kids path := by
    intro he
    simp only [timedWhy, he]
  have hkids : ∀ {c : Bytes}, Present files [c] → kids ≠ [] := by
    rintro c hp rfl
    rcases hp with hp | hp
    · have := ht.dir _ hp
      simp [nodeAt, findEntry] at this
    · obtain ⟨x, hx⟩ := Option.ne_none_iff_exists'.1 hp
      obtain ⟨i, hi, _⟩ := ht.var _ x.1 x.2 hx
      simp [nodeAt, findEntry] at hi
  refine ⟨_, htext, fun hno => ?_, fun hyes => ?_⟩
  · have : kids = [] := by
      cases kids with
      | nil => rfl
      | cons e es =>
        exfalso
        have := ht.missing [e.name] (hno e.name)
        simp only [nodeAt, findEntry, List.find?_cons, decide_true] at this
        cases e <;> simp at this
    rw [hbad (w1 this).2]
    exact (w1 this).1
  · obtain ⟨c0, hc0⟩ := hyes
    have hk := hkids hc0
    refine ⟨fun hc => ?_, fun hc hd => ?_, fun hv hlen => ?_, fun hv hlen => ?_, fun hnp => ?_⟩
    · rw [hbad (w2 hk hc).2]
      exact (w2 hk hc).1
    · obtain ⟨c, cs, hcc⟩ := List.exists_cons_of_ne_nil hc
      have hd := ht.dir _ hd
      rw [hcc] at hd
      obtain ⟨v1, v2, v3, v4⟩ := w3 hk c cs hcc
      rw [hbad (v4 (by rw [hd]; simp)), v1 (.inl hd), hd]
      rfl
    · obtain ⟨x, hx⟩ := Option.ne_none_iff_exists'.1 hv
      obtain ⟨i, hi, _⟩ := ht.var _ x.1 x.2 hx
      obtain ⟨c, cs, hcc⟩ := List.exists_cons_of_ne_nil (l := components path) (by intro e; simp [e] at hlen)
      rw [hcc] at hi
      obtain ⟨v1, v2, v3, v4⟩ := w3 hk c cs hcc
      rw [hbad (v4 (by rw [hi]; simp)), v1 (.inr (by rintro rfl; simp [hcc] at hlen)), hi]
      rfl
    · obtain ⟨x, hx⟩ := Option.ne_none_iff_exists'.1 hv
      obtain ⟨i, hi, _⟩ := ht.var _ x.1 x.2 hx
      obtain ⟨c, hcc⟩ := List.length_eq_one_iff.1 hlen
      rw [hcc] at hi
      obtain ⟨v1, v2, v3, v4⟩ := w3 hk c [] hcc
      rw [hbad (v4 (by rw [hi]; simp)), v3 i hi]
      rfl
    · have hmiss := ht.missing _ hnp
      obtain ⟨c, cs, hcc⟩ := List.exists_cons_of_ne_nil (l := components path) (by
        intro e; rw [e] at hmiss; simp [nodeAt] at hmiss)
      rcases searchTimed_safe ht.sorted ht.live ht.ascii hsf habs h0 (components_bytes path hb) with
        he | ⟨ds, p, h1, c', cs', m, fr, ch, hc, hfe, hfound⟩
      · left
        rw [hcc] at hmiss
        obtain ⟨v1, v2, v3, v4⟩ := w3 hk c cs hcc
        rw [hbad he, v2 hmiss]
        rfl
      · right
        constructor
        · cases hth : timedHead ds p with
          | err => exact absurd hth (timedHead_ne_err _ _)
          | ub => rw [readTimed_eq, h1] at hr; simp only [Res.bind_ok, hth] at hr; cases hr
          | abort => rw [readTimed_eq, h1] at hr; simp only [Res.bind_ok, hth] at hr; cases hr
          | ok t =>
            obtain ⟨steps, name, info⟩ := t
            obtain ⟨text, g1, g2, g3⟩ := c97_steps _ b' path ty ds steps p name info h1 hth hsess
            rw [htext] at g1
            injection g1 with g1
            rw [g1]
            by_cases hz : info.size / typeSize ty = 0
            · exact .inl (g2 hz)
            · exact (g3 hz).text
        · obtain ⟨pre, suf, i, n', fr', ch', suf', info, r1, r2, r3, r4, r5, r6, r7, r8⟩ := hfound
          have hch : childrenAt kids (c' :: pre) = some ds := by simp [childrenAt, hfe, r2]
          have hm := List.mem_of_getElem? r4
          have hfe' := findEntry_mem r8.sorted hm
          simp only [Entry.name] at hfe'
          have hnode := nodeAt_append (c' :: pre) kids ds (n' :: suf') hch
          rw [show nodeAt ds (n' :: suf') = nodeAt ch' suf' by simp [nodeAt, hfe'], r7.nodeAt (r8.sub hm)] at hnode
          exact ⟨c' :: pre, suf, suf', n', by rw [hc, r1]; rfl, by simp, r6, (isDString_iff _).1 r5, hvar _ _ hnode⟩

/-- The error string after `binout_read_timed` as `FLOAT32` from the file; `none` if there are data. -/
def whyOf (s : SrcFile) (path : Bytes) : Option Bytes :=
  match binoutOpen 20 [] [(s.name, some s.content)] with
  | .ok (some b) =>
    match sessTimed b path 9 with
    | .ok (_, b') => b'.error
    | _ => none
  | _ => none

/-- Not vacuous: the texts for the files of C65 and C12. -/
theorem c97_example :
    whyOf lackFile (bs "/n/y") =
      some (bs "The structure of variable \"/n/y\" is invalid. Time Step 1 differs from the first time step") ∧
    whyOf lackFile (bs "/n/x") = none ∧
    whyOf lackFile (bs "/n/z") = some (bs "The variable \"/n/z\" does not exist") ∧
    whyOf lackFile (bs "/n") = some (bs "The variable \"/n\" is either metadata (not timed) or does not exist") ∧
    whyOf lackFile (bs "/") = some (bs "The path \"/\" is too short") ∧
    whyOf lackFile (bs "/n/d1/x") = some (bs "The variable \"/n/d1/x\" is not timed") ∧
    whyOf { lackFile with rs := [] } (bs "/n/x") = some (bs "The binout directory is empty") := by
  decide +kernel

end Dyna
