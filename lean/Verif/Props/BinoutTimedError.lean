import Verif.Props.BinoutRead
/-!
# Reads that must fail (C65)

What the read functions of the binout do if there is nothing (complete) to read.
-/

namespace Dyna

/-! ## The search -/

theorem IsPath.nodeAt {kids p suf info} (h : IsPath kids p suf info) : SortedTree kids →
    Dyna.nodeAt kids suf = some (.file info) := by
  induction h with
  | file he =>
    intro hs
    have hm := List.mem_of_getElem? he
    have := findEntry_mem hs.sorted hm
    simp only [Entry.name] at this
    simp [Dyna.nodeAt, this]
  | folder he hp ih =>
    intro hs
    have hm := List.mem_of_getElem? he
    have := findEntry_mem hs.sorted hm
    simp only [Entry.name] at this
    simp only [Dyna.nodeAt, this]
    exact ih (hs.sub hm)

/-- The search below the first time step fails, or finds a variable under some of the components in their order. -/
theorem searchInD_safe (cs : List Bytes) : ∀ (kids : List Entry), SortedTree kids → LiveTree kids → AsciiTree kids →
    (∀ n ∈ cs, ∀ c ∈ n, c < 256) →
    searchInD kids cs = .err ∨
    ∃ p suf info, searchInD kids cs = .ok p ∧ suf.Sublist cs ∧ IsPath kids p suf info := by
  induction cs with
  | nil => intro kids _ _ _ _; exact .inl rfl
  | cons c cs ih =>
    intro kids hs hl ha hq
    rw [searchInD]
    by_cases h0 : kids.length = 0
    · rw [if_pos h0]; exact .inl rfl
    · rw [if_neg h0]
      have hq' : ∀ n ∈ cs, ∀ c ∈ n, c < 256 := fun n hn => hq n (by simp [hn])
      rcases searchLookup_spec c hs.sorted (fun e he => hl.nameOk he) (fun e he => ha.names he)
        (hq c (by simp)) (by intro e; simp [e] at h0) with ⟨i, e, h1, h2, h3⟩ | ⟨h1, h2⟩
      · rw [h1]; simp only [h2]
        have hname := (findEntry_some h3).2
        cases e with
        | file n info =>
          simp only [Entry.name] at hname
          subst hname
          simp only
          by_cases hc : cs = []
          · right
            refine ⟨[i], [n], info, by simp [hc], ?_, .file h2⟩
            rw [hc]
          · left; simp [hc]
        | folder n fr ch =>
          simp only [Entry.name] at hname
          subst hname
          have hm := (findEntry_some h3).1
          simp only
          rcases ih ch (hs.sub hm) (hl.sub hm).2 (ha.sub hm) hq' with h | ⟨p, suf, info, g1, g2, g3⟩
          · left; rw [h]; rfl
          · right
            exact ⟨i :: p, n :: suf, info, by rw [g1]; rfl, g2.cons_cons n, .folder h2 g3⟩
      · rw [h1]
        simp only
        rcases ih kids hs hl ha hq' with h | ⟨p, suf, info, g1, g2, g3⟩
        · exact .inl h
        · exact .inr ⟨p, suf, info, g1, g2.cons c, g3⟩

/-- No variable has the name of a time step. -/
def NoStepFiles (kids : List Entry) : Prop :=
  ∀ q n, IsStepName n → ∀ i, nodeAt kids (q ++ [n]) ≠ some (.file i)

theorem NoStepFiles.child {kids ch : List Entry} {c n : Bytes} {fr : Bool} (h : NoStepFiles kids)
    (hf : findEntry kids c = some (.folder n fr ch)) : NoStepFiles ch := by
  intro q m hm i
  have := h (c :: q) m hm i
  simpa [nodeAt, hf] using this

theorem firstD_some {kids : List Entry} {i : Nat} (h : firstD kids = some i) :
    ∃ e, kids[i]? = some e ∧ isDString e.name = true := by
  induction kids generalizing i with
  | nil => simp [firstD] at h
  | cons e es ih =>
    rw [firstD] at h
    split at h
    · rename_i hd
      injection h with h
      subst h
      exact ⟨e, rfl, hd⟩
    · cases hf : firstD es with
      | none => rw [hf] at h; simp at h
      | some j =>
        rw [hf] at h
        simp only [Option.map_some, Option.some.injEq] at h
        subst h
        obtain ⟨x, h1, h2⟩ := ih hf
        exact ⟨x, by simpa using h1, h2⟩

/-- What the search for time steps finds in the folders `kids` under the components `cs`: a folder whose first time step
holds a variable under some of the remaining components. -/
def Found (kids : List Entry) (cs : List Bytes) (ds : List Entry) (p : List Nat) : Prop :=
  ∃ pre suf i n fr ch suf' info, cs = pre ++ suf ∧ childrenAt kids pre = some ds ∧ firstD ds = some i ∧
    ds[i]? = some (.folder n fr ch) ∧ isDString n = true ∧ suf'.Sublist suf ∧ IsPath ch p suf' info ∧ SortedTree ds

theorem searchTimedIn_safe (cs : List Bytes) : ∀ (kids : List Entry), SortedTree kids → LiveTree kids → AsciiTree kids →
    (∀ n ∈ cs, ∀ c ∈ n, c < 256) → NoStepFiles kids →
    searchTimedIn kids cs = .err ∨ ∃ ds p, searchTimedIn kids cs = .ok (ds, p) ∧ Found kids cs ds p := by
  induction cs with
  | nil => intro kids _ _ _ _ _; exact .inl rfl
  | cons c cs ih =>
    intro kids hs hl ha hq hstep
    rw [searchTimedIn]
    by_cases h0 : kids.length = 0
    · rw [if_pos h0]; exact .inl rfl
    · rw [if_neg h0]
      have hq' : ∀ n ∈ cs, ∀ c ∈ n, c < 256 := fun n hn => hq n (by simp [hn])
      rcases searchLookup_spec c hs.sorted (fun e he => hl.nameOk he) (fun e he => ha.names he)
        (hq c (by simp)) (by intro e; simp [e] at h0) with ⟨i, e, h1, h2, h3⟩ | ⟨h1, h2⟩
      · rw [h1]; simp only [h2]
        cases e with
        | file n info => exact .inl rfl
        | folder n fr ch =>
          have hm := (findEntry_some h3).1
          simp only
          rcases ih ch (hs.sub hm) (hl.sub hm).2 (ha.sub hm) hq' (hstep.child h3) with h | ⟨ds, p, g1, pre, suf, rest⟩
          · exact .inl h
          · obtain ⟨i', n', fr', ch', suf', info', r1, r2, r3, r4, r5, r6, r7, r8⟩ := rest
            exact .inr ⟨ds, p, g1, c :: pre, suf, i', n', fr', ch', suf', info', by rw [r1]; rfl,
              by simp [childrenAt, h3, r2], r3, r4, r5, r6, r7, r8⟩
      · rw [h1]
        simp only
        cases hd : firstD kids with
        | none => exact .inl rfl
        | some d =>
          obtain ⟨e, he, hname⟩ := firstD_some hd
          simp only [he]
          have hm := List.mem_of_getElem? he
          cases e with
          | file n info =>
            exfalso
            refine hstep [] n ((isDString_iff n).1 hname) info ?_
            have := findEntry_mem hs.sorted hm
            simp only [Entry.name] at this
            simp [nodeAt, this]
          | folder n fr ch =>
            simp only
            by_cases hz : ch.length = 0
            · rw [if_pos hz]; exact .inl rfl
            rw [if_neg hz]
            rcases searchInD_safe (c :: cs) ch (hs.sub hm) (hl.sub hm).2 (ha.sub hm) hq with h | ⟨p, suf, info, g1, g2, g3⟩
            · left; rw [h]; rfl
            · right
              exact ⟨kids, p, by rw [g1]; rfl, [], c :: cs, d, n, fr, ch, suf, info, rfl, rfl, hd, he, hname, g2, g3, hs⟩

theorem searchTimed_safe {kids : List Entry} (hs : SortedTree kids) (hl : LiveTree kids) (ha : AsciiTree kids)
    (hstep : NoStepFiles kids) {path : Bytes} (habs : path.head? = some SEP) (h0 : 0 ∉ path)
    (hb : ∀ n ∈ components path, ∀ c ∈ n, c < 256) :
    searchTimed kids path = .err ∨
    ∃ ds p, searchTimed kids path = .ok (ds, p) ∧ ∃ c cs n fr ch, components path = c :: cs ∧
      findEntry kids c = some (.folder n fr ch) ∧ Found ch cs ds p := by
  unfold searchTimed
  by_cases hz : kids.length = 0
  · rw [if_pos hz]; exact .inl rfl
  rw [if_neg hz]
  obtain ⟨pv, e1, e2, e3, e4⟩ := pvNew_abs path habs
  rw [e1]
  simp only [Res.bind_ok]
  rw [pvRest_eq path h0 _ pv e3 (by omega), e4]
  simp only [Res.bind_ok]
  cases hc : components path with
  | nil => exact .inl rfl
  | cons c cs =>
    rw [hc] at hb
    simp only
    rcases searchLookup_spec c hs.sorted (fun e he => hl.nameOk he) (fun e he => ha.names he)
      (hb c (by simp)) (by intro e; simp [e] at hz) with ⟨i, e, h1, h2, h3⟩ | ⟨h1, h2⟩
    · rw [h1]; simp only [h2]
      cases e with
      | file n info => exact .inl rfl
      | folder n fr ch =>
        have hm := (findEntry_some h3).1
        simp only
        rcases searchTimedIn_safe cs ch (hs.sub hm) (hl.sub hm).2 (ha.sub hm) (fun n hn => hb n (by simp [hn])) (hstep.child h3)
          with h | ⟨ds, p, g1, g2⟩
        · exact .inl h
        · exact .inr ⟨ds, p, g1, c, cs, n, fr, ch, rfl, h3, g2⟩
    · rw [h1]; exact .inl rfl

/-- C65: reading over time is an error (no crash, no data) if the path does not lead to a variable of the time steps:
however the path is split into a folder (`pre`, not the root) and a rest, no time step of the folder holds a variable under (some of the
components of) the rest. No variable may have the name of a time step. -/
theorem c65_no_such_variable (files : List SrcFile) (h : GoodSet files) (hne : files ≠ [])
    (hstep : ∀ q n, IsStepName n → lastVar (allVars files) (q ++ [n]) = none) :
    ∃ n, ∀ fuel, n ≤ fuel → ∀ pattern, ∃ b,
      binoutOpen fuel pattern (files.map (fun s => (s.name, some s.content))) = .ok (some b) ∧
      ∀ (path : Bytes) (ty : Nat), path.head? = some SEP → 0 ∉ path → (∀ c ∈ path, c < 256) →
        (∀ pre suf suf' d, components path = pre ++ suf → pre ≠ [] → suf'.Sublist suf → IsStepName d →
          lastVar (allVars files) (pre ++ d :: suf') = none) →
        readTimed b path ty = .err := by
  obtain ⟨n, hn⟩ := open_good files h hne
  refine ⟨n, fun fuel hf pattern => ?_⟩
  obtain ⟨kids, k1, k2⟩ := hn fuel hf pattern
  refine ⟨_, k1, fun path ty habs h0 hb hno => ?_⟩
  have ht := treeOf_represents h k2
  have hvar : ∀ q i, nodeAt kids q = some (.file i) → lastVar (allVars files) q ≠ none := by
    intro q i hq
    have hp : Present files q := by
      by_contra hnp
      rw [ht.missing _ hnp] at hq
      cases hq
    rcases hp with hp | hp
    · rw [ht.dir _ hp] at hq; cases hq
    · exact hp
  have hsf : NoStepFiles kids := by
    intro q m hm i hi
    exact hvar _ i hi (hstep q m hm)
  unfold readTimed
  rcases searchTimed_safe ht.sorted ht.live ht.ascii hsf habs h0 (components_bytes path hb) with
    h | ⟨ds, p, h1, c, cs, m, fr, ch, hc, hfe, hfound⟩
  · simp only [h]; rfl
  · exfalso
    obtain ⟨pre, suf, i, n', fr', ch', suf', info, r1, r2, r3, r4, r5, r6, r7, r8⟩ := hfound
    have hch : childrenAt kids (c :: pre) = some ds := by simp [childrenAt, hfe, r2]
    have hm := List.mem_of_getElem? r4
    have hfe' := findEntry_mem r8.sorted hm
    simp only [Entry.name] at hfe'
    have hnode := nodeAt_append (c :: pre) kids ds (n' :: suf') hch
    rw [show nodeAt ds (n' :: suf') = nodeAt ch' suf' by simp [nodeAt, hfe'], r7.nodeAt (r8.sub hm)] at hnode
    exact hvar _ _ hnode (hno (c :: pre) suf suf' n' (by rw [hc, r1]; rfl) (by simp) r6 ((isDString_iff _).1 r5))

/-! ## Time steps that lack the variable -/

theorem openStep_cases {ch : List Entry} (hs : SortedTree ch) (hl : LiveTree ch) (ha : AsciiTree ch) {v : Bytes}
    (hv : ∀ c ∈ v, c < 256) (hfile : ∀ e, findEntry ch v = some e → ∃ info, e = .file v info) (i : Nat) :
    openTimedPath ch (some v) [i] = .ok none ∨
    ∃ info, findEntry ch v = some (.file v info) ∧ openTimedPath ch (some v) [i] = .ok (some (v, info)) := by
  rw [openTimedPath]
  by_cases hlen : ch.length < i + 1
  · rw [if_pos hlen]; exact .inl rfl
  rw [if_neg hlen]
  have hi : i < ch.length := by omega
  rw [List.getElem?_eq_getElem hi]
  have hm := List.getElem_mem hi
  have hne : ch ≠ [] := by intro h; rw [h] at hi; simp at hi
  cases he : ch[i] with
  | folder n fr k => simp
  | file n info =>
    simp only [ne_eq, not_true, if_false]
    by_cases hcmp : strcmp n v = 0
    · rw [if_neg (by simp [hcmp])]
      have hnv := (strcmp_eq_zero n v).1 hcmp
      subst hnv
      right
      refine ⟨info, ?_, rfl⟩
      rw [he] at hm
      exact findEntry_mem hs.sorted hm
    · rw [if_pos hcmp]
      rcases searchLookup_spec v hs.sorted (fun e he => hl.nameOk he) (fun e he => ha.names he) hv hne with
        ⟨j, e, h1, h2, h3⟩ | ⟨h1, h2⟩
      · rw [h1]
        obtain ⟨info', rfl⟩ := hfile e h3
        simp only [h2]
        exact .inr ⟨info', h3, rfl⟩
      · rw [h1]; exact .inl rfl

/-- The data of one time step. -/
def StepData (files : List (Option Bytes)) (v : Bytes) (S : Nat) (e : Entry) (pl : Bytes) : Prop :=
  ∃ n fr ch info, e = .folder n fr ch ∧ findEntry ch v = some (.file v info) ∧ info.size = S ∧
    readInfo files info = .ok pl ∧ pl.length = S

/-- A time step whose variable `v` is missing or has `S` bytes. -/
def StepOk (files : List (Option Bytes)) (v : Bytes) (S : Nat) (e : Entry) : Prop :=
  ∃ n fr ch, e = .folder n fr ch ∧ SortedTree ch ∧ LiveTree ch ∧ AsciiTree ch ∧
    (findEntry ch v = none ∨ ∃ pl, StepData files v S e pl)

theorem readSteps_sound (files : List (Option Bytes)) (v : Bytes) (hv : ∀ c ∈ v, c < 256) (i S : Nat) :
    ∀ (D : List Entry) (k : Nat) (pre : List (Option Byte)), (∀ e ∈ D, StepOk files v S e) →
      pre.length = k * S →
      readSteps files v [i] D k (pre ++ List.replicate (S * D.length) none) = .err ∨
      ∃ pays, List.Forall₂ (StepData files v S) D pays ∧
        readSteps files v [i] D k (pre ++ List.replicate (S * D.length) none) = .ok (pre ++ pays.flatten.map some) := by
  intro D
  induction D with
  | nil =>
    intro k pre _ _
    exact .inr ⟨[], .nil, by simp [readSteps]⟩
  | cons e t ih =>
    intro k pre h hk
    obtain ⟨n, fr, ch, he, hs, hl, ha, hor⟩ := h e (by simp)
    rw [readSteps]
    have hopen := openStep_cases hs hl ha hv (by
      intro e' he'
      rcases hor with hnone | ⟨pl, n', fr', ch', info, g1, g2, _⟩
      · rw [hnone] at he'; cases he'
      · rw [he] at g1
        cases g1
        rw [g2] at he'
        cases he'
        exact ⟨info, rfl⟩) i
    rw [he]
    simp only [openTimedEntry]
    rcases hopen with hopen | ⟨info, hfe, hopen⟩
    · left; rw [hopen]; rfl
    rcases hor with hnone | ⟨pl, hsd⟩
    · rw [hnone] at hfe; cases hfe
    have hsd0 := hsd
    obtain ⟨n', fr', ch', info', g1, g2, hS, hr, hlen⟩ := hsd
    rw [he] at g1
    cases g1
    rw [g2] at hfe
    cases hfe
    rw [hopen]
    simp only [Res.bind_ok, hr, hS]
    rw [← hk, writeAt_mid _ _ _ (by
      simp only [List.length_replicate, List.length_cons, hlen, Nat.mul_succ]; omega)]
    simp only [Res.bind_ok]
    have hdrop : (List.replicate (S * (t.length + 1)) (none : Option Byte)).drop pl.length =
        List.replicate (S * t.length) none := by
      rw [List.drop_replicate, hlen, Nat.mul_succ]; congr 1; omega
    rw [List.length_cons, hdrop]
    rcases ih (k + 1) (pre ++ pl.map some) (fun x hx => h x (by simp [hx])) (by simp [hk, hlen, Nat.succ_mul]) with
      herr | ⟨pays, p1, p2⟩
    · exact .inl herr
    · right
      rw [he] at hsd0
      exact ⟨pl :: pays, .cons hsd0 p1, by rw [p2]; simp⟩

/-- Reading the time steps of a tree in which the variable is missing in some of them or at different places. -/
theorem readTimed_sound (bf : BinFile) (hs : SortedTree bf.kids) (hl : LiveTree bf.kids)
    (hast : AsciiTree bf.kids) (path : Bytes) (habs : path.head? = some SEP) (h0 : 0 ∉ path)
    (hb : ∀ c ∈ path, c < 256)
    (P : List Bytes) (v : Bytes) (hcomp : components path = P ++ [v]) (hP : P ≠ [])
    (a D b : List Entry) (hc : childrenAt bf.kids P = some (a ++ D ++ b)) (hD : D ≠ [])
    (ha : ∀ x ∈ a, isDString x.name = false) (hd : ∀ x ∈ D, isDString x.name = true)
    (hbn : ∀ x ∈ b, isDString x.name = false)
    (hmiss : findEntry (a ++ D ++ b) v = none) (S : Nat) (hsteps : ∀ e ∈ D, StepOk bf.files v S e) (ty : Nat) :
    readTimed bf path ty = .err ∨
    (S / typeSize ty ≠ 0 ∧ ∃ pays, List.Forall₂ (StepData bf.files v S) D pays ∧
      readTimed bf path ty = .ok (pays.flatten.map some, S / typeSize ty, D.length)) := by
  obtain ⟨r1, r2⟩ := steps_range hD ha hd hbn
  cases D with
  | nil => exact absurd rfl hD
  | cons e t =>
  have hvb : ∀ c ∈ v, c < 256 := by
    intro c hcv
    exact components_bytes path hb v (by rw [hcomp]; simp) c hcv
  obtain ⟨n, fr, ch, he, hcs, hcl, hca, hor⟩ := hsteps e (by simp)
  cases hfe : findEntry ch v with
  | none =>
    -- the first time step lacks the variable
    left
    have : searchTimed bf.kids path = .err := by
      cases P with
      | nil => exact absurd rfl hP
      | cons c P =>
      have key : ∀ (P : List Bytes) (kids : List Entry), SortedTree kids → LiveTree kids → AsciiTree kids →
          childrenAt kids P = some (a ++ e :: t ++ b) → searchTimedIn kids (P ++ [v]) = .err := by
        intro P
        induction P with
        | nil =>
          intro kids hs hl ha' hc
          simp only [childrenAt, Option.some.injEq] at hc
          subst hc
          have hne : a ++ e :: t ++ b ≠ [] := by simp
          rw [List.nil_append, searchTimedIn, if_neg (by simp), searchLookup_missing hs hl ha' hvb hne hmiss]
          simp only
          rw [r1]
          simp only
          rw [show (a ++ e :: t ++ b)[a.length]? = some e by simp, he]
          simp only
          by_cases hz : ch.length = 0
          · rw [if_pos hz]
          · rw [if_neg hz, searchInD, if_neg hz, searchLookup_missing hcs hcl hca hvb (by simpa using hz) hfe]
            rfl
        | cons c P ih =>
          intro kids hs hl has hc
          simp only [childrenAt] at hc
          split at hc
          · rename_i n fr ch hf
            obtain ⟨hm, hn⟩ := findEntry_some hf
            obtain ⟨i, hi⟩ := getElem?_of_mem' hm
            have hne : kids ≠ [] := by rintro rfl; simp at hm
            have hl2 := searchLookup_idx hs hl has hi
            rw [hn] at hl2
            rw [List.cons_append, searchTimedIn, if_neg (by simpa using hne), hl2]
            simp only [hi]
            exact ih ch (hs.sub hm) (hl.sub hm).2 (has.sub hm) hc
          · simp at hc
      simp only [childrenAt] at hc
      split at hc
      · rename_i n fr ch hf
        obtain ⟨hm, hn⟩ := findEntry_some hf
        obtain ⟨i, hi⟩ := getElem?_of_mem' hm
        have hne : bf.kids ≠ [] := by intro h; rw [h] at hm; simp at hm
        have hl2 := searchLookup_idx hs hl hast hi
        rw [hn] at hl2
        obtain ⟨pv, e1, e2, e3, e4⟩ := pvNew_abs path habs
        unfold searchTimed
        rw [if_neg (by simpa using hne), e1]
        simp only [Res.bind_ok]
        rw [pvRest_eq path h0 _ pv e3 (by omega), e4, hcomp]
        simp only [Res.bind_ok, List.cons_append, hl2, hi]
        exact key P ch (hs.sub hm) (hl.sub hm).2 (hast.sub hm) hc
      · simp at hc
    unfold readTimed
    rw [this]
    rfl
  | some x =>
    rcases hor with hnone | ⟨pl, n', fr', ch', info, g1, g2, hS, hr, hlen⟩
    · rw [hnone] at hfe; cases hfe
    rw [he] at g1
    cases g1
    obtain ⟨hm, _⟩ := findEntry_some g2
    obtain ⟨i, hi⟩ := getElem?_of_mem' hm
    have hp : IsPath ch [i] [v] info := .file hi
    rw [he] at hc hmiss hd
    have hsearch := searchTimed_spec hs hl hast path habs h0 P [v] hcomp hP v [] rfl hvb [i]
      info a t b n fr ch ha (hd _ List.mem_cons_self) hp (by simpa using hmiss) (by simpa using hc)
    have hassoc : a ++ Entry.folder n fr ch :: (t ++ b) = a ++ (Entry.folder n fr ch :: t) ++ b := by simp
    rw [hassoc] at hsearch
    obtain ⟨w, w1, w2⟩ := openTimedPath_path hp none (by simp)
    simp only [List.getLast?_singleton, Option.some.injEq] at w1
    subst w1
    unfold readTimed
    rw [hsearch]
    rw [he] at r1 r2
    simp only [Res.bind_ok, r1, r2]
    rw [show (a ++ Entry.folder n fr ch :: t ++ b)[a.length]? = some (.folder n fr ch) by simp]
    simp only [openTimedEntry, w2, Res.bind_ok, hS]
    by_cases hz : S / typeSize ty = 0
    · left; rw [if_pos hz]
    rw [if_neg hz]
    have hsteps' : a.length + (Entry.folder n fr ch :: t).length - 1 - a.length + 1 =
        (Entry.folder n fr ch :: t).length := by simp
    rw [hsteps']
    have htake : List.take (Entry.folder n fr ch :: t).length
        (List.drop a.length (a ++ Entry.folder n fr ch :: t ++ b)) = Entry.folder n fr ch :: t := by
      rw [List.append_assoc, List.drop_left, List.take_left]
    rw [htake]
    rw [he] at hsteps
    have := readSteps_sound bf.files v hvb i S (Entry.folder n fr ch :: t) 0 [] hsteps (by simp)
    simp only [List.nil_append] at this
    rcases this with h | ⟨pays, p1, p2⟩
    · left; rw [h]; rfl
    · right
      rw [he]
      exact ⟨hz, pays, p1, by rw [p2]; rfl⟩

theorem childrenAt_live (q : List Bytes) : ∀ (kids ch : List Entry), LiveTree kids → childrenAt kids q = some ch →
    LiveTree ch := by
  induction q with
  | nil => intro kids ch hl h; simp only [childrenAt, Option.some.injEq] at h; subst h; exact hl
  | cons c q ih =>
    intro kids ch hl h
    simp only [childrenAt] at h
    split at h
    · rename_i n fr k hf
      exact ih k ch (hl.sub (findEntry_some hf).1).2 h
    · simp at h

theorem childrenAt_ascii (q : List Bytes) : ∀ (kids ch : List Entry), AsciiTree kids → childrenAt kids q = some ch →
    AsciiTree ch := by
  induction q with
  | nil => intro kids ch hl h; simp only [childrenAt, Option.some.injEq] at h; subst h; exact hl
  | cons c q ih =>
    intro kids ch hl h
    simp only [childrenAt] at h
    split at h
    · rename_i n fr k hf
      exact ih k ch (hl.sub (findEntry_some hf).1) h
    · simp at h

/-- C65: if a variable of the time steps is missing in some of them (or lies at different places), and has the same size
where it exists, then reading it over time either gives an error or the complete data: every time step holds the variable,
and the values of all time steps come in the order of the names of the steps. It is an error if a time step lacks
the variable, or if there are less bytes than one value. Compare `c19_read_timed_partial`: here the time steps may hold different
names. -/
theorem c65_all_or_error (files : List SrcFile) (h : GoodSet files) (hne : files ≠ []) :
    ∃ n, ∀ fuel, n ≤ fuel → ∀ pattern, ∃ b,
      binoutOpen fuel pattern (files.map (fun s => (s.name, some s.content))) = .ok (some b) ∧
      ∀ (path : Bytes) (q : List Bytes) (v : Bytes) (steps : List Bytes) (size ty w : Nat), TypeWidth ty w →
        path.head? = some SEP → 0 ∉ path → (∀ c ∈ path, c < 256) →
        components path = q ++ [v] → q ≠ [] → IsDir files q →
        StepsOf files q steps → steps ≠ [] →
        (∀ n, Present files (q ++ [n]) → n.head? = some 100 →
          IsStepName n ∧ lastVar (allVars files) (q ++ [n]) = none) →
        ¬ Present files (q ++ [v]) →
        (∀ d ∈ steps, ¬ IsDir files (q ++ [d, v])) →
        (∀ d ∈ steps, ∀ ty' pl, lastVar (allVars files) (q ++ [d, v]) = some (ty', pl) → pl.length = size) →
        size ≠ 0 →
        readTimed b path ty = .err ∨
        (size / w ≠ 0 ∧ (∀ d ∈ steps, lastVar (allVars files) (q ++ [d, v]) ≠ none) ∧
          readTimed b path ty = .ok ((steps.flatMap (fun d =>
            ((lastVar (allVars files) (q ++ [d, v])).map (·.2)).getD [])).map some, size / w, steps.length)) := by
  obtain ⟨n, hn⟩ := open_good files h hne
  refine ⟨n, fun fuel hf pattern => ?_⟩
  obtain ⟨kids, k1, k2⟩ := hn fuel hf pattern
  refine ⟨_, k1, fun path q v steps size ty w hw habs h0 hb hcomp hq hdir hst hsne hd hmiss
    hnd hsz hz => ?_⟩
  rw [← hw.size]
  have ht := treeOf_represents h k2
  obtain ⟨ch, hc⟩ := childrenAt_of_dir ht hdir
  have hsubs : SortedTree ch := ((childrenAt_spec _ _ ht.sorted).1 ch hc).1
  have hdn : ∀ e ∈ ch, e.name.head? = some 100 → IsStepName e.name := by
    intro e he hh
    apply (hd e.name _ hh).1
    rcases child_cases ht hc he with h | h
    · exact .inl h.1
    · exact .inr h.1
  have hnv : ∀ n, IsStepName n → lastVar (allVars files) (q ++ [n]) = none := by
    intro n hn
    by_contra hcon
    obtain ⟨ds, e, _⟩ := hn
    exact hcon (hd n (.inr hcon) (by simp [e])).2
  obtain ⟨a, b, s1, s2, s3⟩ := steps_adjacent hsubs.sorted hdn
  have hnames := steps_children ht hc hnv hst
  have hstep : ∀ e ∈ ch.filter (fun e => isDString e.name), ∃ fr k,
      e = .folder e.name fr k ∧ childrenAt kids (q ++ [e.name]) = some k ∧ e.name ∈ steps := by
    intro e he
    obtain ⟨hm, hdd⟩ := List.mem_filter.1 he
    have hin : e.name ∈ steps := by rw [← hnames]; exact List.mem_map.2 ⟨e, he, rfl⟩
    obtain ⟨fr, k, m1, m2⟩ := child_folder ht hc ((hst.names _).1 hin).2
    have e1 := findEntry_mem hsubs.sorted hm
    have e2 := findEntry_mem hsubs.sorted m1
    rw [show (Entry.folder e.name fr k).name = e.name from rfl, e1] at e2
    exact ⟨fr, k, by injection e2, m2, hin⟩
  -- the variable in a time step
  have hentry : ∀ d ∈ steps, ∀ k, childrenAt kids (q ++ [d]) = some k →
      (findEntry k v = none ∧ lastVar (allVars files) (q ++ [d, v]) = none) ∨
      ∃ info ty' pl, findEntry k v = some (.file v info) ∧ lastVar (allVars files) (q ++ [d, v]) = some (ty', pl) ∧
        info.size = size ∧ readInfo (files.map (fun s => some s.content)) info = .ok pl ∧ pl.length = size := by
    intro d hdin k hk
    have hnode : nodeAt kids (q ++ [d, v]) = nodeAt k [v] := by
      rw [show q ++ [d, v] = (q ++ [d]) ++ [v] by simp, nodeAt_append _ _ _ _ hk]
    cases hl : lastVar (allVars files) (q ++ [d, v]) with
    | none =>
      left
      refine ⟨?_, rfl⟩
      rw [ht.missing _ (by rintro (h | h); exacts [hnd d hdin h, h hl])] at hnode
      simp only [nodeAt] at hnode
      cases hfe : findEntry k v with
      | none => rfl
      | some x => rw [hfe] at hnode; cases x <;> simp at hnode
    | some x =>
      obtain ⟨ty', pl⟩ := x
      right
      obtain ⟨i, i1, i2, i3, i4⟩ := ht.var _ _ _ hl
      rw [i1] at hnode
      simp only [nodeAt] at hnode
      have hlen := hsz d hdin ty' pl hl
      cases hfe : findEntry k v with
      | none => rw [hfe] at hnode; simp at hnode
      | some x =>
        rw [hfe] at hnode
        have hname := (findEntry_some hfe).2
        cases x with
        | folder => simp at hnode
        | file m j =>
          simp at hnode; subst hnode
          simp only [Entry.name] at hname; subst hname
          exact ⟨i, ty', pl, rfl, rfl, by rw [i3, hlen], i4 (by rw [i3, hlen]; exact hz), hlen⟩
  have hDne : ch.filter (fun e => isDString e.name) ≠ [] := by
    intro he; rw [he] at hnames; simp at hnames; exact hsne hnames
  have hok : ∀ e ∈ ch.filter (fun e => isDString e.name),
      StepOk (files.map (fun s => some s.content)) v size e := by
    intro e he
    obtain ⟨fr, k, e1, e2, e3⟩ := hstep e he
    have hm : Entry.folder e.name fr k ∈ ch := by rw [← e1]; exact (List.mem_filter.1 he).1
    have hlive := childrenAt_live q kids ch ht.live hc
    have hasc := childrenAt_ascii q kids ch ht.ascii hc
    refine ⟨e.name, fr, k, e1, hsubs.sub hm, (hlive.sub hm).2, hasc.sub hm, ?_⟩
    rcases hentry e.name e3 k e2 with h | ⟨info, ty', pl, h1, h2, h3, h4, h5⟩
    · exact .inl h.1
    · exact .inr ⟨pl, e.name, fr, k, info, e1, h1, h3, h4, h5⟩
  have := readTimed_sound ⟨kids, files.map (fun s => some s.content), none⟩ ht.sorted ht.live ht.ascii
    path habs h0 hb q v hcomp hq a _ b (by rw [← s1]; exact hc) hDne s2
    (fun x hx => (List.mem_filter.1 hx).2) s3
    (by
      rw [← s1, findEntry_none]
      intro e he hen
      rw [← hen] at hmiss
      rcases child_cases ht hc he with hx | hx
      · exact hmiss (.inl hx.1)
      · exact hmiss (.inr hx.1)) size hok ty
  rcases this with h | ⟨hz', pays, p1, p2⟩
  · exact .inl h
  right
  have hpay : ∀ (D : List Entry) (pays : List Bytes), (∀ e ∈ D, e ∈ ch.filter (fun e => isDString e.name)) →
      List.Forall₂ (StepData (files.map (fun s => some s.content)) v size) D pays →
      (∀ d ∈ D.map Entry.name, lastVar (allVars files) (q ++ [d, v]) ≠ none) ∧
      pays.flatten = (D.map Entry.name).flatMap (fun d => ((lastVar (allVars files) (q ++ [d, v])).map (·.2)).getD []) := by
    intro D pays hin hF
    induction hF with
    | nil => simp
    | @cons e pl D pays hsd _ ih =>
      obtain ⟨n', fr', ch', info, g1, g2, g3, g4, g5⟩ := hsd
      obtain ⟨fr, k, e1, e2, e3⟩ := hstep e (hin e (by simp))
      have e4 : ch' = k := by rw [g1] at e1; simp only [Entry.folder.injEq] at e1; exact e1.2.2
      subst e4
      obtain ⟨i1, i2⟩ := ih (fun x hx => hin x (by simp [hx]))
      rcases hentry e.name e3 ch' e2 with hx | ⟨info', ty', pl', h1, h2, h3, h4, h5⟩
      · rw [hx.1] at g2; cases g2
      rw [h1] at g2
      cases g2
      rw [h4] at g4
      cases g4
      constructor
      · intro d hd'
        simp only [List.map_cons, List.mem_cons] at hd'
        rcases hd' with rfl | hd'
        · rw [h2]; simp
        · exact i1 d hd'
      · rw [List.flatten_cons, i2, List.map_cons, List.flatMap_cons, h2]
        simp
  obtain ⟨q1, q2⟩ := hpay _ pays (fun _ h => h) p1
  rw [hnames] at q1 q2
  refine ⟨hz', q1, ?_⟩
  rw [p2, q2, ← hnames, List.length_map]

/-! ## Files that got shorter after the binout has been opened -/

/-- The file was removed, or lost bytes at its end, after it has been opened. -/
def Shrunk (old new : Option Bytes) : Prop :=
  new = none ∨ ∃ c c', old = some c ∧ new = some c' ∧ c' <+: c

theorem readInfo_shrunk {old new : List (Option Bytes)} (h : List.Forall₂ Shrunk old new) (i : FileInfo) :
    readInfo new i = .err ∨ readInfo new i = readInfo old i := by
  unfold readInfo
  have key : ∀ (k : Nat), (new[k]? = none ∧ old[k]? = none) ∨ ∃ a b, old[k]? = some a ∧ new[k]? = some b ∧ Shrunk a b := by
    induction h with
    | nil => intro k; left; simp
    | cons h1 _ ih =>
      intro k
      cases k with
      | zero => right; exact ⟨_, _, rfl, rfl, h1⟩
      | succ k => simpa using ih k
  rcases key i.fileIndex with ⟨h1, h2⟩ | ⟨a, b, h1, h2, hs⟩
  · right; rw [h1, h2]
  rw [h1, h2]
  rcases hs with rfl | ⟨c, c', rfl, rfl, t, ht⟩
  · left; rfl
  simp only
  by_cases hp : i.filePos < u64 / 2
  · rw [if_pos hp, if_pos hp]
    unfold freadObj
    by_cases hz : i.size = 0
    · left; rw [if_pos hz]
    rw [if_neg hz, if_neg hz]
    by_cases hl : i.filePos + i.size ≤ c'.length
    · right
      rw [if_pos hl, if_pos (by rw [← ht, List.length_append]; omega), ← ht,
        List.drop_append_of_le_length (by omega), List.take_append_of_le_length (by rw [List.length_drop]; omega)]
    · left; rw [if_neg hl]
  · left; rw [if_neg hp]

theorem binoutRead_shrunk (b : BinFile) (new : List (Option Bytes)) (h : List.Forall₂ Shrunk b.files new)
    (path : Bytes) (ty : Nat) :
    binoutRead { b with files := new } path ty = .err ∨
    binoutRead { b with files := new } path ty = binoutRead b path ty := by
  unfold binoutRead
  simp only
  cases hg : getFile b.kids path with
  | err => exact .inl rfl
  | ub => exact .inr rfl
  | abort => exact .inr rfl
  | ok o =>
    simp only [Res.bind_ok]
    cases o with
    | none => exact .inl rfl
    | some i =>
      simp only
      by_cases h1 : i.varType ≠ ty
      · rw [if_pos h1]; exact .inl rfl
      rw [if_neg h1, if_neg h1]
      by_cases h2 : i.size = 0
      · rw [if_pos h2]; exact .inl rfl
      rw [if_neg h2, if_neg h2]
      rcases readInfo_shrunk h i with h3 | h3
      · rw [h3]; exact .inl rfl
      · rw [h3]; exact .inr rfl

/-- C65: if files are removed or get shorter after the binout has been opened, a read gives an error or the complete
variable, never less. -/
theorem c65_shrunk (files : List SrcFile) (h : GoodSet files) (hne : files ≠ []) :
    ∃ n, ∀ fuel, n ≤ fuel → ∀ pattern, ∃ b,
      binoutOpen fuel pattern (files.map (fun s => (s.name, some s.content))) = .ok (some b) ∧
      ∀ (new : List (Option Bytes)), List.Forall₂ (fun s o => Shrunk (some (SrcFile.content s)) o) files new →
      ∀ (path : Bytes) (ty w : Nat), TypeWidth ty w → path.head? = some SEP → 0 ∉ path →
        (∀ c ∈ path, c < 256) →
        binoutRead { b with files := new } path ty = .err ∨
        ∃ payload, lastVar (allVars files) (components path) = some (ty, payload) ∧ payload ≠ [] ∧
          binoutRead { b with files := new } path ty = .ok (payload, payload.length / w) := by
  obtain ⟨n, hn⟩ := c18_read files h hne
  obtain ⟨m, hm⟩ := open_good files h hne
  refine ⟨max n m, fun fuel hf pattern => ?_⟩
  obtain ⟨b, hb, hr⟩ := hn fuel (by omega) pattern
  obtain ⟨kids, k1, k2⟩ := hm fuel (by omega) pattern
  refine ⟨b, hb, fun new hnew path ty w hw h1 h2 h3 => ?_⟩
  have hfiles : b.files = files.map (fun s => some s.content) := by
    rw [k1] at hb
    cases hb
    rfl
  have hS : List.Forall₂ Shrunk b.files new := by
    rw [hfiles]
    clear hm hn hr k1 k2 hb h hne hfiles hf
    induction hnew with
    | nil => exact .nil
    | cons a _ ih => exact .cons a ih
  have hread := hr path ty w hw h1 h2 h3
  rcases binoutRead_shrunk b new hS path ty with he | he
  · exact .inl he
  rw [he, hread]
  cases hl : lastVar (allVars files) (components path) with
  | none => exact .inl rfl
  | some x =>
    obtain ⟨ty', pl⟩ := x
    simp only
    by_cases hc : ty' = ty ∧ pl ≠ []
    · right; exact ⟨pl, by rw [hc.1], hc.2, by rw [if_pos hc]⟩
    · left; rw [if_neg hc]

/-- C65: reading a file that lost the last bytes of the variable is an error (whatever the tree says). -/
theorem c65_missing_bytes (b : BinFile) (path : Bytes) (ty : Nat) (i : FileInfo) (c : Bytes)
    (hg : getFile b.kids path = .ok (some i)) (hf : b.files[i.fileIndex]? = some (some c))
    (hs : c.length < i.filePos + i.size) : binoutRead b path ty = .err := by
  unfold binoutRead
  simp only [hg, Res.bind_ok]
  by_cases h1 : i.varType ≠ ty
  · rw [if_pos h1]
  rw [if_neg h1]
  by_cases h2 : i.size = 0
  · rw [if_pos h2]
  rw [if_neg h2]
  have : readInfo b.files i = .err := by
    unfold readInfo
    rw [hf]
    simp only [freadObj, if_neg h2, if_neg (Nat.not_le.2 hs)]
    split <;> rfl
  rw [this]; rfl

/-! ## Concrete cases that meet the hypotheses -/

/-- The sample file, read after its last byte has been cut off: the variable at the end of the file is an error. -/
example : ∃ n, ∀ fuel, n ≤ fuel → ∀ pattern, ∃ b,
    binoutOpen fuel pattern [(sampleFile.name, some sampleFile.content)] = .ok (some b) ∧
    ∀ k ty w, TypeWidth ty w →
      binoutRead { b with files := [some (sampleFile.content.take k)] } (bs "/nodout/d000002/x") ty = .err ∨
      ∃ payload, lastVar (allVars [sampleFile]) [bs "nodout", bs "d000002", bs "x"] = some (ty, payload) ∧ payload ≠ [] ∧
        binoutRead { b with files := [some (sampleFile.content.take k)] } (bs "/nodout/d000002/x") ty =
          .ok (payload, payload.length / w) := by
  obtain ⟨n, hn⟩ := c65_shrunk [sampleFile] sampleFile_good (by simp)
  refine ⟨n, fun fuel hf pattern => ?_⟩
  obtain ⟨b, b1, b2⟩ := hn fuel hf pattern
  refine ⟨b, b1, fun k ty w hw => ?_⟩
  exact b2 [some (sampleFile.content.take k)] (.cons (.inr ⟨_, _, rfl, rfl, List.take_prefix _ _⟩) .nil)
    (bs "/nodout/d000002/x") ty w hw (by decide +kernel) (by decide +kernel) (by decide +kernel)

/-- The second time step lacks the variable `y` of the first one. -/
def lackFile : SrcFile where
  name := bs "binout0000"
  w := ⟨8, 8, 1⟩
  rs := [.cd (bs "/n/d1"), .data 9 (bs "x") [1, 2, 3, 4], .data 9 (bs "y") [1, 2, 3, 4],
    .cd (bs "/n/d2"), .data 9 (bs "x") [5, 6, 7, 8]]

theorem lackFile_good : GoodSet [lackFile] where
  ok := by
    intro s hs; simp at hs; subst hs
    exact {
      widths := by unfold Header.Ok; decide +kernel
      recs := by
        intro r hr
        simp only [lackFile, List.mem_cons, List.not_mem_nil, or_false] at hr
        rcases hr with rfl | rfl | rfl | rfl | rfl <;>
          (refine ⟨by decide +kernel, by decide +kernel, ?_⟩; simp only; decide +kernel)
      size := by decide +kernel
      cds := by
        simp only [lackFile, cdsOk]
        decide +kernel
      starts := by simp [lackFile, startsCd]
      ascii := by
        intro r hr
        simp only [lackFile, List.mem_cons, List.not_mem_nil, or_false] at hr
        rcases hr with rfl | rfl | rfl | rfl | rfl <;>
          simp only [WRec.isAscii] <;> decide +kernel }
  few := by simp
  noClash := by decide +kernel

theorem lack_folders : allFolders [lackFile] = [[bs "n", bs "d1"], [bs "n", bs "d2"]] := by decide +kernel

theorem lack_vars : allVars [lackFile] = [([bs "n", bs "d1", bs "x"], 9, [1, 2, 3, 4]),
    ([bs "n", bs "d1", bs "y"], 9, [1, 2, 3, 4]), ([bs "n", bs "d2", bs "x"], 9, [5, 6, 7, 8])] := by decide +kernel

/-- `c65_all_or_error` applies to it and says that reading `y` over time is an error. -/
example : ∃ n, ∀ fuel, n ≤ fuel → ∀ pattern, ∃ b,
    binoutOpen fuel pattern [(lackFile.name, some lackFile.content)] = .ok (some b) ∧
    readTimed b (bs "/n/y") 9 = .err := by
  obtain ⟨n, hn⟩ := c65_all_or_error [lackFile] lackFile_good (by simp)
  refine ⟨n, fun fuel hf pattern => ?_⟩
  obtain ⟨b, b1, b2⟩ := hn fuel hf pattern
  refine ⟨b, b1, ?_⟩
  have hdirs : ∀ q, IsDir [lackFile] q → q = [] ∨ q = [bs "n"] ∨ q = [bs "n", bs "d1"] ∨ q = [bs "n", bs "d2"] := by
    intro q hq
    unfold IsDir at hq
    rw [lack_folders] at hq
    rcases hq with hq | ⟨p, h2, h3⟩
    · exact .inl hq
    · simp only [List.mem_cons, List.not_mem_nil, or_false] at h2
      have hp : ∀ (a : Bytes), q <+: [bs "n", a] → q = [] ∨ q = [bs "n"] ∨ q = [bs "n", a] := by
        intro a ha
        rcases q with _ | ⟨x, _ | ⟨y, q⟩⟩
        · simp
        · simp at ha; simp [ha]
        · simp at ha; simp [ha]
      rcases h2 with rfl | rfl
      · rcases hp _ h3 with h | h | h <;> simp [h]
      · rcases hp _ h3 with h | h | h <;> simp [h]
  have hvar2 : ∀ m, lastVar (allVars [lackFile]) [bs "n", m] = none := by
    intro m; rw [lack_vars]; simp [lastVar]
  have hlack : lastVar (allVars [lackFile]) [bs "n", bs "d2", bs "y"] = none := by decide +kernel
  have hdir2 : ∀ m, IsDir [lackFile] [bs "n", m] → m = bs "d1" ∨ m = bs "d2" := by
    intro m hm
    rcases hdirs _ hm with h | h | h | h <;> simp at h <;> simp [h]
  have := b2 (bs "/n/y") [bs "n"] (bs "y") [bs "d1", bs "d2"] 4 9 4 TypeWidth.float32
    (by decide +kernel) (by decide +kernel) (by decide +kernel) (by decide +kernel) (by simp)
    (.inr ⟨[bs "n", bs "d1"], by rw [lack_folders]; simp, by simp⟩)
    { sorted := by simp only [List.pairwise_cons]; decide +kernel
      names := by
        intro m
        constructor
        · intro hm
          simp only [List.mem_cons, List.not_mem_nil, or_false] at hm
          rcases hm with rfl | rfl
          · exact ⟨(isDString_iff _).1 (by decide +kernel), .inr ⟨[bs "n", bs "d1"], by rw [lack_folders]; simp, by simp⟩⟩
          · exact ⟨(isDString_iff _).1 (by decide +kernel), .inr ⟨[bs "n", bs "d2"], by rw [lack_folders]; simp, by simp⟩⟩
        · rintro ⟨_, h2⟩
          rcases hdir2 m h2 with rfl | rfl <;> simp }
    (by simp)
    (by
      intro m hp _
      refine ⟨?_, hvar2 m⟩
      rcases hp with hp | hp
      · rcases hdir2 m hp with rfl | rfl <;> exact (isDString_iff _).1 (by decide +kernel)
      · exact absurd (hvar2 m) hp)
    (by
      rintro (hp | hp)
      · rcases hdir2 _ hp with h | h <;> exact absurd h (by decide +kernel)
      · exact hp (hvar2 _))
    (by
      intro d _ hdd
      rcases hdirs _ hdd with h | h | h | h <;> simp at h)
    (by
      intro d hd ty' pl hl
      simp only [List.mem_cons, List.not_mem_nil, or_false] at hd
      rcases hd with rfl | rfl
      · have : lastVar (allVars [lackFile]) [bs "n", bs "d1", bs "y"] = some (9, [1, 2, 3, 4]) := by decide +kernel
        simp only [List.cons_append, List.nil_append] at hl
        rw [this] at hl
        cases hl; rfl
      · simp only [List.cons_append, List.nil_append] at hl
        rw [hlack] at hl
        cases hl)
    (by simp)
  rcases this with h | ⟨_, h, _⟩
  · exact h
  · exact absurd hlack (h (bs "d2") (by simp))

/-- `c65_no_such_variable` applies to it: there is no variable `z`. -/
example : ∃ n, ∀ fuel, n ≤ fuel → ∀ pattern, ∃ b,
    binoutOpen fuel pattern [(lackFile.name, some lackFile.content)] = .ok (some b) ∧
    readTimed b (bs "/n/z") 9 = .err := by
  have hkey : ∀ (l : List Bytes) (ty : Nat) (pl : Bytes), lastVar (allVars [lackFile]) l = some (ty, pl) →
      l = [bs "n", bs "d1", bs "x"] ∨ l = [bs "n", bs "d1", bs "y"] ∨ l = [bs "n", bs "d2", bs "x"] := by
    intro l ty pl h
    rw [lack_vars] at h
    by_contra hcon
    simp only [not_or] at hcon
    obtain ⟨h1, h2, h3⟩ := hcon
    simp [lastVar, Ne.symm h1, Ne.symm h2, Ne.symm h3] at h
  obtain ⟨n, hn⟩ := c65_no_such_variable [lackFile] lackFile_good (by simp) (by
    intro q m hm
    by_contra hcon
    obtain ⟨⟨ty, pl⟩, hx⟩ := Option.ne_none_iff_exists'.1 hcon
    rcases hkey _ _ _ hx with h | h | h <;>
    · have : m ∈ [bs "x", bs "y"] := by
        have := congrArg List.getLast? h
        simp at this
        simp [this]
      simp only [List.mem_cons, List.not_mem_nil, or_false] at this
      rcases this with rfl | rfl
      · exact absurd ((isDString_iff _).2 hm) (by decide +kernel)
      · exact absurd ((isDString_iff _).2 hm) (by decide +kernel))
  refine ⟨n, fun fuel hf pattern => ?_⟩
  obtain ⟨b, b1, b2⟩ := hn fuel hf pattern
  refine ⟨b, b1, b2 (bs "/n/z") 9 (by decide +kernel) (by decide +kernel) (by decide +kernel) ?_⟩
  intro pre suf suf' d hcs hpre hsub hstep
  by_contra hcon
  obtain ⟨⟨ty, pl⟩, hx⟩ := Option.ne_none_iff_exists'.1 hcon
  have hc : components (bs "/n/z") = [bs "n", bs "z"] := by decide +kernel
  rw [hc] at hcs
  have hlast : ∀ x ∈ pre ++ suf', x = bs "n" ∨ x = bs "z" := by
    intro x hxm
    have : x ∈ pre ++ suf := by
      rcases List.mem_append.1 hxm with h | h
      · exact List.mem_append.2 (.inl h)
      · exact List.mem_append.2 (.inr (hsub.subset h))
    rw [← hcs] at this
    simpa using this
  have hxy : ∃ x ∈ pre ++ d :: suf', x = bs "x" ∨ x = bs "y" := by
    rcases hkey _ _ _ hx with h | h | h <;> rw [h] <;> simp
  obtain ⟨x, hxm, hxx⟩ := hxy
  have : x = d ∨ x ∈ pre ++ suf' := by
    simp only [List.mem_append, List.mem_cons] at hxm ⊢
    rcases hxm with h | h | h <;> simp [h]
  rcases this with rfl | h
  · rcases hxx with rfl | rfl
    · exact absurd ((isDString_iff _).2 hstep) (by decide +kernel)
    · exact absurd ((isDString_iff _).2 hstep) (by decide +kernel)
  · rcases hlast x h with rfl | rfl
    · rcases hxx with h | h <;> exact absurd h (by decide +kernel)
    · rcases hxx with h | h <;> exact absurd h (by decide +kernel)

end Dyna
