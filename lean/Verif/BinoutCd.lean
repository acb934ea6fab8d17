import Verif.Binout
/-!
# Change-directory records
-/

namespace Dyna

/-! ## Specification -/

/-- Path resolution: an absolute path replaces the current folder; otherwise components are
appended and `..` removes the last one. Part of the specification, models no code. -/
def cdTarget (cur : List Bytes) (p : Bytes) : List Bytes :=
  if p.head? = some SEP then components p
  else (components p).foldl (fun c x => if x = bs ".." then c.dropLast else c ++ [x]) cur

/-- No `..` is applied at the root. Part of the specification, models no code. -/
def staysBelow : List Bytes → List Bytes → Prop
  | _, [] => True
  | cur, c :: cs =>
    if c = bs ".." then cur ≠ [] ∧ staysBelow cur.dropLast cs else staysBelow (cur ++ [c]) cs

instance : ∀ cur cs, Decidable (staysBelow cur cs)
  | _, [] => isTrue trivial
  | cur, c :: cs =>
    if h : c = bs ".." then
      have := instDecidableStaysBelow cur.dropLast cs
      decidable_of_iff (cur ≠ [] ∧ staysBelow cur.dropLast cs) (by simp [staysBelow, h])
    else
      have := instDecidableStaysBelow (cur ++ [c]) cs
      decidable_of_iff (staysBelow (cur ++ [c]) cs) (by simp [staysBelow, h])

/-- A CD path as LS-DYNA writes them: a non-empty text; an absolute path starts with exactly
one separator and does not designate the root; a relative path does not leave the root and
does not end at it. Part of the specification, models no code. -/
def cdOk (cur : List Bytes) (p : Bytes) : Prop :=
  p ≠ [] ∧ 0 ∉ p ∧ (∀ c ∈ p, c < 256) ∧
  (p.head? = some SEP → p[1]? ≠ some SEP) ∧
  (p.head? ≠ some SEP → staysBelow cur (components p)) ∧ cdTarget cur p ≠ []

instance (cur p) : Decidable (cdOk cur p) := by unfold cdOk; infer_instance

/-- Upper bound of the length of the path text kept by the reader.
Part of the specification, models no code. -/
def cdRoom (n : Nat) (p : Bytes) : Nat :=
  if p.head? = some SEP then p.length else n + p.length + 1

/-! ## Lemmas -/

theorem splitSep_lengths (s : Bytes) :
    ((splitSep s).map (fun p => p.length + 1)).sum = s.length + 1 := by
  induction s with
  | nil => simp [splitSep]
  | cons c cs ih =>
    unfold splitSep
    split
    · simp [ih]; omega
    · split
      · rename_i h; exact absurd h (splitSep_ne_nil cs)
      · rename_i p ps h
        rw [h] at ih; simp at ih ⊢; omega

theorem components_lengths (s : Bytes) :
    ((components s).map (fun p => p.length + 1)).sum ≤ s.length + 1 := by
  rw [← splitSep_lengths s, components]
  generalize splitSep s = l
  induction l with
  | nil => simp
  | cons a t ih =>
    by_cases h : a = []
    · simp [h]; simp at ih; omega
    · simp [h]; simp at ih; omega

theorem splitSep_mem (s : Bytes) : ∀ n ∈ splitSep s, SEP ∉ n ∧ ∀ c ∈ n, c ∈ s := by
  induction s with
  | nil => intro n hn; simp [splitSep] at hn; subst hn; simp
  | cons x xs ih =>
    intro n hn
    unfold splitSep at hn
    split at hn
    · simp at hn
      rcases hn with rfl | hn
      · simp
      · exact ⟨(ih n hn).1, fun c hc => by simp [(ih n hn).2 c hc]⟩
    · rename_i hx
      split at hn
      · rename_i h; exact absurd h (splitSep_ne_nil xs)
      · rename_i p ps h
        simp at hn
        rcases hn with rfl | hn
        · have := ih p (by rw [h]; simp)
          refine ⟨?_, ?_⟩
          · simp; exact ⟨fun e => hx e.symm, this.1⟩
          · intro c hc; simp at hc
            rcases hc with rfl | hc
            · simp
            · simp [this.2 c hc]
        · have := ih n (by rw [h]; simp [hn])
          exact ⟨this.1, fun c hc => by simp [this.2 c hc]⟩

theorem components_mem {s n : Bytes} (h : n ∈ components s) :
    n ≠ [] ∧ SEP ∉ n ∧ ∀ c ∈ n, c ∈ s := by
  simp only [components, List.mem_filter, decide_eq_true_eq] at h
  exact ⟨h.2, splitSep_mem s n h.1⟩

/-- The view on an absolute path with a single leading separator. -/
theorem viewTarget_spec (p : Bytes) (h : p.head? = some SEP) (h0 : 0 ∉ p)
    (h1 : p[1]? ≠ some SEP) :
    viewTarget p = .ok (if components p = [] then none else some (components p)) := by
  cases p with
  | nil => simp at h
  | cons c cs =>
    simp at h; subst h
    have hpv : pvNew (SEP :: cs) = .ok ⟨0, 0⟩ := by
      unfold pvNew
      simp only [ne_eq, not_true, if_false]
      rw [if_neg]
      intro hh
      cases cs with
      | nil => simp [rd, SEP] at hh
      | cons d ds => simp [rd] at hh h1; exact h1 hh
    have hdw : ((SEP :: cs).drop (0 + 1)).dropWhile isSep = cs := by
      simp only [Nat.zero_add, List.drop_succ_cons, List.drop_zero]
      cases cs with
      | nil => rfl
      | cons d ds =>
        have : isSep d = false := by simp at h1; simp [h1]
        simp [this]
    unfold viewTarget
    rw [hpv]
    simp only [Res.bind_ok]
    have hstart : ∀ pv', pvAdvance (SEP :: cs) ⟨0, 0⟩ = .ok (some pv') → pv'.start = 1 := by
      intro pv' he
      unfold pvAdvance at he
      rw [skipSep_eq _ _ (by simp)] at he
      have : (((SEP :: cs).drop (0 + 1)).takeWhile isSep).length = 0 := by
        simp only [Nat.zero_add, List.drop_succ_cons, List.drop_zero]
        cases cs with
        | nil => rfl
        | cons d ds =>
          have : isSep d = false := by simp at h1; simp [h1]
          simp [this]
      rw [this] at he
      simp only [Nat.zero_add, Nat.add_zero] at he
      repeat' split at he
      all_goals first | (simp at he; done) | (simp at he; rw [← he])
    rcases pvAdvance_spec (SEP :: cs) h0 ⟨0, 0⟩ (by simp) with ⟨a1, a2⟩ | ⟨pv', a1, a2, a3, a4, ⟨d, ds, a5, a6⟩, a7, a8⟩
    · rw [a2]
      rw [hdw] at a1
      subst a1
      simp [components_sep, components_nil]
    · rw [a1]
      simp only [Res.bind_ok]
      rw [if_neg (by simp [hstart pv' a1])]
      rw [pvRest_eq _ h0 _ pv' a4 (by omega)]
      rw [hdw] at a5 a7 a8
      simp only [Res.bind_ok]
      have hcomp : components (SEP :: cs) = pvStr (SEP :: cs) pv' ::
          components ((SEP :: cs).drop (pv'.stop + 1)) := by
        rw [components_sep, a7, a8, ← components_take_drop cs d ds a5 a6]
      rw [← hcomp, if_neg (by rw [hcomp]; simp)]

/-- Invariant of `current_path_string`. Part of the specification, models no code. -/
structure PathInv (cur : Bytes) (cl : List Bytes) (n : Nat) : Prop where
  head : cur.head? = some SEP
  noz : 0 ∉ cur
  second : cur[1]? ≠ some SEP
  comps : components cur = cl
  len : cur.length ≤ n

theorem applyComponent_spec {cur : Bytes} {cl : List Bytes} {n : Nat} (hi : PathInv cur cl n)
    (c : Bytes) (hne : c ≠ []) (hns : SEP ∉ c) (h0 : 0 ∉ c) (hb : ∀ x ∈ c, x < 256)
    (hup : c = bs ".." → cl ≠ []) (hroom : n + c.length + 1 < 1024) :
    ∃ cur', applyComponent cur c = .ok cur' ∧
      PathInv cur' (if c = bs ".." then cl.dropLast else cl ++ [c]) (n + c.length + 1) := by
  unfold applyComponent
  have hz : pvStrcmp c (bs "..") = 0 ↔ c = bs ".." :=
    pvStrcmp_eq_zero c (bs "..") hb (by decide)
  obtain ⟨x, xs, hx⟩ : ∃ x xs, cur = x :: xs := by
    cases hc : cur with
    | nil => have := hi.head; rw [hc] at this; simp at this
    | cons x xs => exact ⟨x, xs, rfl⟩
  have hxs : x = SEP := by have := hi.head; rw [hx] at this; simpa using this
  by_cases hc : c = bs ".."
  · rw [if_pos (hz.2 hc)]
    have hm := pathMoveUp_abs cur hi.head
    cases hp : pathMoveUp cur with
    | none =>
      rw [hp] at hm
      exact absurd (hi.comps ▸ hm) (hup hc)
    | some r =>
      rw [hp] at hm
      refine ⟨_, rfl, ?_⟩
      obtain ⟨k, hk, hk0⟩ : ∃ k, (if r = 0 then 1 else r) = k + 1 ∧ (r = 0 → k = 0) := by
        by_cases hr : r = 0
        · exact ⟨0, by simp [hr], fun _ => rfl⟩
        · exact ⟨r - 1, by simp [hr]; omega, fun h => absurd h hr⟩
      rw [hk]
      have hcomp : components (cur.take (k + 1)) = cl.dropLast := by
        rw [← hi.comps, ← hm.2]
        by_cases hr : r = 0
        · rw [hk0 hr, hr, hx, hxs]; simp [components_sep, components_nil]
        · have : r = k + 1 := by rw [if_neg hr] at hk; exact hk
          rw [this]
      rw [if_pos hc]
      refine ⟨?_, ?_, ?_, hcomp, ?_⟩
      · rw [hx]; simp [hxs]
      · intro hm; exact hi.noz (List.mem_of_mem_take hm)
      · rw [List.getElem?_take]; split
        · exact hi.second
        · simp
      · have := hi.len; simp; omega
  · rw [if_neg (fun h => hc (hz.1 h)), if_neg (by have := hi.len; omega)]
    obtain ⟨l, hl⟩ : ∃ l, cur.getLast? = some l := by
      rw [hx]; exact ⟨_, List.getLast?_eq_some_getLast (by simp)⟩
    rw [hl]
    simp only
    obtain ⟨y, ys, hy⟩ : ∃ y ys, c = y :: ys := by
      cases hcc : c with
      | nil => exact absurd hcc hne
      | cons y ys => exact ⟨y, ys, rfl⟩
    have hy0 : y ≠ SEP := fun e => hns (by rw [hy]; simp [e])
    have hlen := hi.len
    by_cases hls : l = SEP
    · rw [if_neg (by simp [hls]), if_neg hc]
      refine ⟨_, rfl, ?_, ?_, ?_, ?_, ?_⟩
      · rw [hx]; simp [hxs]
      · simp [hi.noz, h0]
      · rw [hx, hy]
        cases xs with
        | nil => simp [hy0]
        | cons z zs => have := hi.second; rw [hx] at this; simpa using this
      · have hcur : cur = cur.dropLast ++ [SEP] := by
          have := List.dropLast_concat_getLast (l := cur) (by rw [hx]; simp)
          rw [List.getLast?_eq_some_getLast (by rw [hx]; simp)] at hl
          simp at hl
          rw [← this, hl, hls]; simp
        have h2 : components cur.dropLast = cl := by
          rw [← hi.comps]; conv => rhs; rw [hcur]
          rw [components_snoc_sep]
        rw [← h2, ← components_snoc cur.dropLast c hns hne]
        conv => lhs; rw [hcur]
        simp
      · simp; omega
    · rw [if_pos hls, if_neg hc]
      refine ⟨_, rfl, ?_, ?_, ?_, ?_, ?_⟩
      · rw [hx]; simp [hxs]
      · simp [hi.noz, h0, SEP]
      · rw [hx]
        cases xs with
        | nil => rw [hx] at hl; simp at hl; exact absurd (hl ▸ hxs) hls
        | cons z zs => have := hi.second; rw [hx] at this; simpa using this
      · rw [components_snoc cur c hns hne, hi.comps]
      · simp; omega

theorem applyComponents_spec (cs : List Bytes) : ∀ {cur : Bytes} {cl : List Bytes} {n : Nat},
    PathInv cur cl n → (∀ c ∈ cs, c ≠ [] ∧ SEP ∉ c ∧ 0 ∉ c ∧ ∀ x ∈ c, x < 256) →
    staysBelow cl cs → n + (cs.map (fun p => p.length + 1)).sum < 1024 →
    ∃ cur', applyComponents cur cs = .ok cur' ∧
      PathInv cur' (cs.foldl (fun c x => if x = bs ".." then c.dropLast else c ++ [x]) cl)
        (n + (cs.map (fun p => p.length + 1)).sum) := by
  induction cs with
  | nil => intro cur cl n hi _ _ _; exact ⟨cur, rfl, by simpa using hi⟩
  | cons c cs ih =>
    intro cur cl n hi hall hst hroom
    obtain ⟨a1, a2, a3, a4⟩ := hall c (by simp)
    simp only [List.map_cons, List.sum_cons] at hroom ⊢
    obtain ⟨cur1, e1, i1⟩ := applyComponent_spec hi c a1 a2 a3 a4
      (fun hc => by simp only [staysBelow, hc, if_true] at hst; exact hst.1) (by omega)
    have hst' : staysBelow (if c = bs ".." then cl.dropLast else cl ++ [c]) cs := by
      simp only [staysBelow] at hst
      split at hst
      · rename_i h; rw [if_pos h]; exact hst.2
      · rename_i h; rw [if_neg h]; exact hst
    obtain ⟨cur2, e2, i2⟩ := ih i1 (fun x hx => hall x (by simp [hx])) hst' (by omega)
    refine ⟨cur2, ?_, ?_⟩
    · simp only [applyComponents]; rw [e1]; simpa using e2
    · simp only [List.foldl_cons]
      rw [← Nat.add_assoc, ← Nat.add_assoc]; exact i2

/-- The path handling follows the specification. -/
theorem changeDir_spec {cur : Bytes} {cl : List Bytes} {n : Nat} (hi : PathInv cur cl n)
    (p : Bytes) (hok : cdOk cl p) (hroom : cdRoom n p < 1024) :
    ∃ cur', changeDir cur p = .ok (cur', some (cdTarget cl p)) ∧
      PathInv cur' (cdTarget cl p) (cdRoom n p) := by
  obtain ⟨h1, h2, h3, h4, h5, h6⟩ := hok
  have hcs : cstr p = p := cstr_eq h2
  unfold changeDir
  simp only [hcs]
  by_cases ha : p.head? = some SEP
  · rw [if_pos ha, viewTarget_spec p ha h2 (h4 ha)]
    simp only [cdTarget, ha, if_true] at h6 ⊢
    rw [if_neg h6]
    refine ⟨p, rfl, ha, h2, h4 ha, rfl, ?_⟩
    simp [cdRoom, ha]
  · rw [if_neg ha, pvElems_eq p h2 h1]
    simp only [Res.bind_ok]
    have hroom' : n + p.length + 1 < 1024 := by simpa [cdRoom, ha] using hroom
    have hlens := components_lengths p
    obtain ⟨cur', e1, i1⟩ := applyComponents_spec (components p) hi
      (fun c hc => by
        obtain ⟨m1, m2, m3⟩ := components_mem hc
        exact ⟨m1, m2, fun hz => h2 (m3 0 hz), fun x hx => h3 x (m3 x hx)⟩)
      (h5 ha) (by omega)
    have ht : cdTarget cl p =
        (components p).foldl (fun c x => if x = bs ".." then c.dropLast else c ++ [x]) cl := by
      simp [cdTarget, ha]
    rw [← ht] at i1
    rw [e1]
    simp only [Res.bind_ok]
    rw [viewTarget_spec cur' i1.head i1.noz i1.second, i1.comps, if_neg h6]
    simp only [Res.bind_ok]
    refine ⟨cur', rfl, i1.head, i1.noz, i1.second, i1.comps, ?_⟩
    have := i1.len
    simp only [cdRoom, ha, if_false]; omega

end Dyna
