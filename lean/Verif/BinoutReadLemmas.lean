import Verif.BinoutSpec
import Verif.BinoutRead
/-!
# Lemmas about reading variables and time steps
-/

namespace Dyna

/-! ## Names of time step folders -/

/-- A time step folder: the letter d followed by at least one decimal digit.
Part of the specification, models no code. -/
def IsStepName (n : Bytes) : Prop :=
  ∃ ds : Bytes, n = 100 :: ds ∧ ds ≠ [] ∧ ∀ c ∈ ds, 48 ≤ c ∧ c ≤ 57

theorem allDigits_iff (l : Bytes) : allDigits l = true ↔ ∀ c ∈ l, 48 ≤ c ∧ c ≤ 57 := by
  induction l with
  | nil => simp [allDigits]
  | cons c cs ih =>
    unfold allDigits
    by_cases h : 48 ≤ c ∧ c ≤ 57
    · rw [if_neg (by simpa using h), ih]
      simp [h]
    · rw [if_pos h]
      simp only [Bool.false_eq_true, List.mem_cons, forall_eq_or_imp, false_iff]
      exact fun hh => h hh.1

theorem isDString_iff (n : Bytes) : isDString n = true ↔ IsStepName n := by
  unfold isDString IsStepName
  cases n with
  | nil => simp
  | cons c cs =>
    by_cases hc : c = 100
    · subst hc
      simp only [ne_eq, not_true, if_false]
      by_cases hd : allDigits cs = true
      · rw [if_pos hd]
        rw [allDigits_iff] at hd
        simp only [decide_eq_true_eq, List.cons.injEq, true_and]
        constructor
        · intro h; exact ⟨cs, rfl, by intro he; simp [he] at h, hd⟩
        · rintro ⟨ds, rfl, h, _⟩; simpa using h
      · rw [if_neg hd]
        simp only [Bool.false_eq_true, false_iff]
        rintro ⟨ds, h, _, h3⟩
        simp at h; subst h
        exact hd ((allDigits_iff _).2 h3)
    · simp only [ne_eq, hc, not_false_eq_true, if_true, Bool.false_eq_true, false_iff]
      rintro ⟨ds, h, _⟩
      simp at h; exact hc h.1

/-! ## First and last time step -/

theorem firstD_none {kids : List Entry} (h : ∀ e ∈ kids, isDString e.name = false) :
    firstD kids = none := by
  induction kids with
  | nil => rfl
  | cons e es ih =>
    simp only [firstD, h e (by simp), Bool.false_eq_true, if_false]
    rw [ih (fun x hx => h x (by simp [hx]))]; rfl

theorem firstD_append {a t : List Entry} {e : Entry} (h : ∀ x ∈ a, isDString x.name = false)
    (he : isDString e.name = true) : firstD (a ++ e :: t) = some a.length := by
  induction a with
  | nil => simp [firstD, he]
  | cons x xs ih =>
    simp only [List.cons_append, firstD, h x (by simp), Bool.false_eq_true, if_false]
    rw [ih (fun y hy => h y (by simp [hy]))]; simp

theorem lastDFrom_append (x : List Entry) (e : Entry) (b : List Entry)
    (he : isDString e.name = true) (hb : ∀ y ∈ b, isDString y.name = false) :
    ∀ k, k ≤ b.length → lastDFrom (x ++ e :: b) (x.length + k) = some x.length := by
  intro k
  induction k with
  | zero =>
    intro _
    cases hx : x.length with
    | zero =>
      have : x = [] := List.length_eq_zero_iff.1 hx
      subst this
      simp [lastDFrom, he]
    | succ n =>
      have : (x ++ e :: b)[n + 1]? = some e := by
        rw [← hx]; simp
      simp only [Nat.add_zero, lastDFrom, this, he, if_true]
  | succ k ih =>
    intro hk
    have hlt : k < b.length := by omega
    have hg : (x ++ e :: b)[x.length + k + 1]? = some b[k] := by
      rw [List.getElem?_append_right (by omega)]
      rw [show x.length + k + 1 - x.length = k + 1 by omega]
      simp [hlt]
    rw [show x.length + (k + 1) = x.length + k + 1 by omega]
    simp only [lastDFrom, hg, hb b[k] (List.getElem_mem hlt), Bool.false_eq_true, if_false]
    exact ih (by omega)

/-- First and last time step of an array in which the time steps are adjacent. -/
theorem steps_range {a D b : List Entry} (hD : D ≠ [])
    (ha : ∀ x ∈ a, isDString x.name = false) (hd : ∀ x ∈ D, isDString x.name = true)
    (hb : ∀ x ∈ b, isDString x.name = false) :
    firstD (a ++ D ++ b) = some a.length ∧
    lastDFrom (a ++ D ++ b) ((a ++ D ++ b).length - 1) = some (a.length + D.length - 1) := by
  constructor
  · cases D with
    | nil => exact absurd rfl hD
    | cons e t =>
      rw [List.append_assoc, List.cons_append]
      exact firstD_append ha (hd e (by simp))
  · rcases List.eq_nil_or_concat D with h | ⟨t, e, h⟩
    · exact absurd h hD
    · have h' : D = t ++ [e] := by simpa using h
      subst h'
      have := lastDFrom_append (a ++ t) e b (hd e (by simp)) hb b.length (Nat.le_refl _)
      have e1 : a ++ (t ++ [e]) ++ b = a ++ t ++ e :: b := by simp
      have e2 : (a ++ (t ++ [e]) ++ b).length - 1 = (a ++ t).length + b.length := by
        simp; omega
      rw [e2, e1, this]
      simp

/-! ## Time steps of a sorted array are adjacent -/

theorem split3 (k : Bytes → Nat) (c : Nat) (l : List Entry)
    (h : l.Pairwise (fun a b => k a.name ≤ k b.name)) :
    l = l.filter (fun e => k e.name < c) ++ l.filter (fun e => k e.name = c) ++
      l.filter (fun e => c < k e.name) := by
  induction l with
  | nil => rfl
  | cons x xs ih =>
    rw [List.pairwise_cons] at h
    have ih' := ih h.2
    rcases Nat.lt_trichotomy (k x.name) c with hx | hx | hx
    · simp only [List.filter_cons, hx, decide_true, if_true, Nat.ne_of_lt hx, decide_false,
        Bool.false_eq_true, if_false, Nat.not_lt_of_lt hx, List.cons_append]
      rw [← ih']
    · have h0 : xs.filter (fun e => decide (k e.name < c)) = [] := by
        rw [List.filter_eq_nil_iff]
        intro e he; have := h.1 e he; simp; omega
      simp only [List.filter_cons, hx, Nat.lt_irrefl, decide_true, if_true, decide_false,
        Bool.false_eq_true, if_false]
      rw [h0] at ih' ⊢
      simp only [List.nil_append, List.cons_append] at ih' ⊢
      rw [← ih']
    · have h0 : xs.filter (fun e => decide (k e.name < c)) = [] := by
        rw [List.filter_eq_nil_iff]
        intro e he; have := h.1 e he; simp; omega
      have h1 : xs.filter (fun e => decide (k e.name = c)) = [] := by
        rw [List.filter_eq_nil_iff]
        intro e he; have := h.1 e he; simp; omega
      simp only [List.filter_cons, hx, Nat.not_lt_of_lt hx, (Nat.ne_of_lt hx).symm, decide_true,
        if_true, decide_false, Bool.false_eq_true, if_false]
      rw [h0, h1] at ih' ⊢
      simp only [List.nil_append] at ih' ⊢
      rw [← ih']

/-- Sort key: the first byte. Part of the specification, models no code. -/
def headKey : Bytes → Nat
  | [] => 0
  | c :: _ => c + 1

theorem headKey_mono {a b : Bytes} (h : LexLt a b) : headKey a ≤ headKey b := by
  cases a with
  | nil => simp [headKey]
  | cons x xs =>
    cases b with
    | nil => simp [LexLt] at h
    | cons y ys =>
      simp only [LexLt] at h
      simp only [headKey]
      omega

/-- In a sorted array in which every name with the first letter d is a time step, the time
steps are adjacent. -/
theorem steps_adjacent {kids : List Entry} (hs : kids.Pairwise (fun a b => LexLt a.name b.name))
    (hd : ∀ e ∈ kids, e.name.head? = some 100 → IsStepName e.name) :
    ∃ a b, kids = a ++ kids.filter (fun e => isDString e.name) ++ b ∧
      (∀ x ∈ a, isDString x.name = false) ∧ (∀ x ∈ b, isDString x.name = false) := by
  have hsp := split3 headKey 101 kids (hs.imp (fun {a b} h => headKey_mono h))
  have hk : ∀ e ∈ kids, isDString e.name = true ↔ headKey e.name = 101 := by
    intro e he
    constructor
    · intro h
      obtain ⟨ds, h1, _⟩ := (isDString_iff _).1 h
      rw [h1]; rfl
    · intro h
      rw [isDString_iff]
      apply hd e he
      cases hn : e.name with
      | nil => rw [hn] at h; simp [headKey] at h
      | cons c cs => rw [hn] at h; simp [headKey] at h; simp [h]
  have hf : kids.filter (fun e => isDString e.name) =
      kids.filter (fun e => decide (headKey e.name = 101)) := by
    apply List.filter_congr
    intro e he
    have := hk e he
    by_cases h : isDString e.name = true
    · simp [h, this.1 h]
    · have h2 : headKey e.name ≠ 101 := fun hc => h (this.2 hc)
      simp only [Bool.not_eq_true] at h
      simp [h, h2]
  refine ⟨_, _, by rw [hf]; exact hsp, ?_, ?_⟩
  · intro x hx
    obtain ⟨h1, h2⟩ := List.mem_filter.1 hx
    simp at h2
    by_contra hc
    have := (hk x h1).1 (by simpa using hc)
    omega
  · intro x hx
    obtain ⟨h1, h2⟩ := List.mem_filter.1 hx
    simp at h2
    by_contra hc
    have := (hk x h1).1 (by simpa using hc)
    omega

/-! ## Searching -/

/-- The search for the name of an entry finds its index. -/
theorem searchLookup_idx {kids : List Entry} {i : Nat} {e : Entry}
    (hs : SortedTree kids) (hl : LiveTree kids) (ha : AsciiTree kids)
    (he : kids[i]? = some e) : searchLookup e.name kids = .ok (some i) := by
  have hm := List.mem_of_getElem? he
  have hne : kids ≠ [] := by rintro rfl; simp at hm
  rcases searchLookup_spec e.name hs.sorted (fun x hx => hl.nameOk hx) (fun x hx => ha.names hx)
    (fun c hc => by have := ha.names hm c hc; omega) hne with ⟨j, x, h1, h2, h3⟩ | ⟨_, h⟩
  · rw [h1]
    have hx := (findEntry_some h3).2
    congr 2
    rw [List.getElem?_eq_some_iff] at he h2
    obtain ⟨hi, he⟩ := he
    obtain ⟨hj, h2⟩ := h2
    have hp := List.pairwise_iff_getElem.1 hs.sorted
    rcases Nat.lt_trichotomy j i with hlt | heq | hlt
    · have := hp j i hj hi hlt
      rw [he, h2, hx] at this
      exact absurd this (LexLt.irrefl _)
    · exact heq
    · have := hp i j hi hj hlt
      rw [he, h2, hx] at this
      exact absurd this (LexLt.irrefl _)
  · exact absurd rfl (findEntry_none.1 h e hm)

theorem searchLookup_missing {kids : List Entry} {v : Bytes}
    (hs : SortedTree kids) (hl : LiveTree kids) (ha : AsciiTree kids) (hv : ∀ c ∈ v, c < 256)
    (hne : kids ≠ []) (h : findEntry kids v = none) : searchLookup v kids = .ok none := by
  rcases searchLookup_spec v hs.sorted (fun x hx => hl.nameOk hx) (fun x hx => ha.names hx)
    hv hne with ⟨j, x, h1, h2, h3⟩ | ⟨h1, _⟩
  · rw [h] at h3; cases h3
  · exact h1

theorem getElem?_of_mem' {kids : List Entry} {e : Entry} (h : e ∈ kids) :
    ∃ i : Nat, kids[i]? = some e := List.getElem?_of_mem h

/-- The indices `p` lead through the names `suf` to the variable `info`.
Part of the specification, models no code. -/
inductive IsPath : List Entry → List Nat → List Bytes → FileInfo → Prop
  | file {kids : List Entry} {i : Nat} {v : Bytes} {info : FileInfo} :
      kids[i]? = some (.file v info) → IsPath kids [i] [v] info
  | folder {kids ch : List Entry} {i : Nat} {c : Bytes} {fr : Bool} {p : List Nat}
      {cs : List Bytes} {info : FileInfo} :
      kids[i]? = some (.folder c fr ch) → IsPath ch p cs info → IsPath kids (i :: p) (c :: cs) info

theorem IsPath.ne_nil {kids p suf info} (h : IsPath kids p suf info) : p ≠ [] ∧ suf ≠ [] := by
  cases h <;> simp

theorem IsPath.kids_ne {kids p suf info} (h : IsPath kids p suf info) : kids ≠ [] := by
  rintro rfl
  cases h <;> simp_all

theorem searchInD_path {kids p suf info} (h : IsPath kids p suf info) :
    SortedTree kids → LiveTree kids → AsciiTree kids → searchInD kids suf = .ok p := by
  induction h with
  | file he =>
    intro hs hl ha
    rename_i kids i v info
    have hne : kids ≠ [] := by rintro rfl; simp at he
    have := searchLookup_idx hs hl ha he
    simp only [Entry.name] at this
    rw [searchInD, if_neg (by simpa using hne), this]
    simp only [he, if_true]
  | folder he hp ih =>
    intro hs hl ha
    rename_i kids ch i c fr p cs info
    have hne : kids ≠ [] := by rintro rfl; simp at he
    have hm := List.mem_of_getElem? he
    have := searchLookup_idx hs hl ha he
    simp only [Entry.name] at this
    rw [searchInD, if_neg (by simpa using hne), this]
    simp only [he]
    rw [ih (hs.sub hm) (hl.sub hm).2 (ha.sub hm)]
    rfl

theorem strcmp_self (v : Bytes) : strcmp v v = 0 := by
  induction v with
  | nil => rfl
  | cons c cs ih => simp [strcmp, ih]

theorem openTimedPath_path {kids p suf info} (h : IsPath kids p suf info) (name : Option Bytes)
    (hn : ∀ v, name = some v → suf.getLast? = some v) :
    ∃ v, suf.getLast? = some v ∧ openTimedPath kids name p = .ok (some (v, info)) := by
  induction h with
  | file he =>
    rename_i kids i v info
    refine ⟨v, rfl, ?_⟩
    have hlt : i < kids.length := (List.getElem?_eq_some_iff.1 he).1
    rw [openTimedPath, if_neg (by omega)]
    simp only [he, ne_eq, not_true, if_false]
    cases name with
    | none => rfl
    | some w =>
      have := hn w rfl
      simp at this; subst this
      simp [strcmp_self]
  | folder he hp ih =>
    rename_i kids ch i c fr p cs info
    have hcs := hp.ne_nil
    have hlast : (c :: cs).getLast? = cs.getLast? := by
      cases cs with
      | nil => exact absurd rfl hcs.2
      | cons x xs => simp [List.getLast?_cons_cons]
    obtain ⟨v, h1, h2⟩ := ih (fun v hv => by rw [← hlast]; exact hn v hv)
    refine ⟨v, by rw [hlast]; exact h1, ?_⟩
    have hlt : i < kids.length := (List.getElem?_eq_some_iff.1 he).1
    rw [openTimedPath, if_neg (by omega)]
    simp only [he]
    rw [if_neg hcs.1]
    exact h2

/-! ## The loop over the time steps -/

theorem readSteps_spec (files : List (Option Bytes)) (name : Bytes) (p : List Nat)
    (suf : List Bytes) (hname : suf.getLast? = some name) (S : Nat) :
    ∀ (D : List Entry) (pays : List Bytes) (k : Nat) (pre : List (Option Byte)),
      List.Forall₂ (fun e pl => ∃ n fr ch info, e = .folder n fr ch ∧ IsPath ch p suf info ∧
        info.size = S ∧ readInfo files info = .ok pl ∧ pl.length = S) D pays →
      pre.length = k * S →
      readSteps files name p D k (pre ++ List.replicate (S * D.length) none) =
        .ok (pre ++ pays.flatten.map some) := by
  intro D
  induction D with
  | nil =>
    intro pays k pre h _
    cases h
    simp [readSteps]
  | cons e t ih =>
    intro pays k pre h hk
    cases h with
    | cons h1 h2 =>
      rename_i pl pays
      obtain ⟨n, fr, ch, info, rfl, hp, hS, hr, hl⟩ := h1
      obtain ⟨v, hv1, hv2⟩ := openTimedPath_path hp (some name) (by
        intro v hv; cases hv; exact hname)
      rw [readSteps]
      simp only [openTimedEntry, hv2, Res.bind_ok, hr, hS]
      rw [← hk, writeAt_mid _ _ _ (by
        simp only [List.length_replicate, List.length_cons, hl, Nat.mul_succ]; omega)]
      simp only [Res.bind_ok]
      have hdrop : (List.replicate (S * (t.length + 1)) (none : Option Byte)).drop pl.length =
          List.replicate (S * t.length) none := by
        rw [List.drop_replicate, hl, Nat.mul_succ]; congr 1; omega
      rw [List.length_cons, hdrop]
      have := ih pays (k + 1) (pre ++ pl.map some) h2 (by
        simp [hk, hl, Nat.succ_mul])
      rw [this]
      simp

/-! ## The search for the time steps -/

theorem searchTimedIn_spec (suf : List Bytes) (v : Bytes) (cs : List Bytes) (hsuf : suf = v :: cs)
    (hv : ∀ c ∈ v, c < 256) (p : List Nat) (info : FileInfo)
    (a D b : List Entry) (n0 : Bytes) (fr0 : Bool) (ch0 : List Entry)
    (ha : ∀ x ∈ a, isDString x.name = false) (hn0 : isDString n0 = true)
    (hp : IsPath ch0 p suf info)
    (hmiss : findEntry (a ++ .folder n0 fr0 ch0 :: (D ++ b)) v = none) :
    ∀ (P : List Bytes) (kids : List Entry), SortedTree kids → LiveTree kids → AsciiTree kids →
      childrenAt kids P = some (a ++ .folder n0 fr0 ch0 :: (D ++ b)) →
      searchTimedIn kids (P ++ suf) = .ok (a ++ .folder n0 fr0 ch0 :: (D ++ b), p) := by
  intro P
  induction P with
  | nil =>
    intro kids hs hl has hc
    simp only [childrenAt, Option.some.injEq] at hc
    subst hc
    have hm : Entry.folder n0 fr0 ch0 ∈ a ++ .folder n0 fr0 ch0 :: (D ++ b) := by simp
    have hne : a ++ .folder n0 fr0 ch0 :: (D ++ b) ≠ [] := by simp
    simp only [List.nil_append]
    subst hsuf
    have hk0 := hp.kids_ne
    rw [searchTimedIn, if_neg (by simp), searchLookup_missing hs hl has hv hne hmiss]
    simp only
    rw [firstD_append ha (show isDString (Entry.folder n0 fr0 ch0).name = true from hn0)]
    simp only
    rw [show (a ++ Entry.folder n0 fr0 ch0 :: (D ++ b))[a.length]? = some (.folder n0 fr0 ch0) by
      simp]
    simp only
    rw [if_neg (by simpa using hk0),
      searchInD_path hp (hs.sub hm) (hl.sub hm).2 (has.sub hm)]
    rfl
  | cons c P ih =>
    intro kids hs hl has hc
    simp only [childrenAt] at hc
    split at hc
    · rename_i n fr ch hf
      obtain ⟨hm, hn⟩ := findEntry_some hf
      obtain ⟨i, hi⟩ := getElem?_of_mem' hm
      have hne : kids ≠ [] := by rintro rfl; simp at hm
      have hl2 := searchLookup_idx hs hl has hi
      rw [hn] at hl2
      rw [List.cons_append, searchTimedIn, if_neg (by simpa using hne), hl2]
      simp only [hi]
      exact ih ch (hs.sub hm) (hl.sub hm).2 (has.sub hm) hc
    · simp at hc

theorem searchTimed_spec {kids : List Entry} (hs : SortedTree kids) (hl : LiveTree kids)
    (hast : AsciiTree kids) (path : Bytes) (habs : path.head? = some SEP) (h0 : 0 ∉ path)
    (P suf : List Bytes) (hcomp : components path = P ++ suf) (hP : P ≠ [])
    (v : Bytes) (cs : List Bytes) (hsuf : suf = v :: cs)
    (hv : ∀ c ∈ v, c < 256) (p : List Nat) (info : FileInfo)
    (a D b : List Entry) (n0 : Bytes) (fr0 : Bool) (ch0 : List Entry)
    (ha : ∀ x ∈ a, isDString x.name = false) (hn0 : isDString n0 = true)
    (hp : IsPath ch0 p suf info)
    (hmiss : findEntry (a ++ .folder n0 fr0 ch0 :: (D ++ b)) v = none)
    (hc : childrenAt kids P = some (a ++ .folder n0 fr0 ch0 :: (D ++ b))) :
    searchTimed kids path = .ok (a ++ .folder n0 fr0 ch0 :: (D ++ b), p) := by
  cases P with
  | nil => exact absurd rfl hP
  | cons c P =>
    simp only [childrenAt] at hc
    split at hc
    · rename_i n fr ch hf
      obtain ⟨hm, hn⟩ := findEntry_some hf
      obtain ⟨i, hi⟩ := getElem?_of_mem' hm
      have hne : kids ≠ [] := by rintro rfl; simp at hm
      have hl2 := searchLookup_idx hs hl hast hi
      rw [hn] at hl2
      obtain ⟨pv, e1, e2, e3, e4⟩ := pvNew_abs path habs
      unfold searchTimed
      rw [if_neg (by simpa using hne), e1]
      simp only [Res.bind_ok]
      rw [pvRest_eq path h0 _ pv e3 (by omega), e4, hcomp]
      simp only [Res.bind_ok, List.cons_append, hl2, hi]
      exact searchTimedIn_spec suf v cs hsuf hv p info a D b n0 fr0 ch0 ha hn0 hp hmiss P ch
        (hs.sub hm) (hl.sub hm).2 (hast.sub hm) hc
    · simp at hc

/-- Reading the time steps of a tree in which the variable has the same position in each of
them. -/
theorem readTimed_tree (bf : BinFile) (hs : SortedTree bf.kids) (hl : LiveTree bf.kids)
    (hast : AsciiTree bf.kids) (path : Bytes) (habs : path.head? = some SEP) (h0 : 0 ∉ path)
    (hb : ∀ c ∈ path, c < 256)
    (P suf : List Bytes) (hcomp : components path = P ++ suf) (hP : P ≠ []) (hsuf : suf ≠ [])
    (a D b : List Entry) (hc : childrenAt bf.kids P = some (a ++ D ++ b)) (hD : D ≠ [])
    (ha : ∀ x ∈ a, isDString x.name = false) (hd : ∀ x ∈ D, isDString x.name = true)
    (hbn : ∀ x ∈ b, isDString x.name = false)
    (hmiss : ∀ v, suf.head? = some v → findEntry (a ++ D ++ b) v = none)
    (p : List Nat) (S : Nat) (pays : List Bytes)
    (hsteps : List.Forall₂ (fun e pl => ∃ n fr ch info, e = .folder n fr ch ∧ IsPath ch p suf info ∧
        info.size = S ∧ readInfo bf.files info = .ok pl ∧ pl.length = S) D pays)
    (ty : Nat) (hty : S / typeSize ty ≠ 0) :
    readTimed bf path ty = .ok (pays.flatten.map some, S / typeSize ty, D.length) := by
  obtain ⟨r1, r2⟩ := steps_range hD ha hd hbn
  cases suf with
  | nil => exact absurd rfl hsuf
  | cons v cs =>
  cases D with
  | nil => exact absurd rfl hD
  | cons e t =>
  have hst := hsteps
  cases hst with
  | cons h1 h2 =>
    rename_i pl pays
    obtain ⟨n, fr, ch, info, rfl, hp, hS, hr, hlen⟩ := h1
    have hvb : ∀ c ∈ v, c < 256 := by
      intro c hcv
      have hvm : v ∈ components path := by rw [hcomp]; simp
      exact components_bytes path hb v hvm c hcv
    have hsearch := searchTimed_spec hs hl hast path habs h0 P (v :: cs) hcomp hP v cs rfl hvb p
      info a t b n fr ch ha (hd _ List.mem_cons_self) hp (by simpa using hmiss v rfl)
      (by simpa using hc)
    have hassoc : a ++ Entry.folder n fr ch :: (t ++ b) = a ++ (Entry.folder n fr ch :: t) ++ b := by
      simp
    rw [hassoc] at hsearch
    obtain ⟨w, w1, w2⟩ := openTimedPath_path hp none (by simp)
    unfold readTimed
    rw [hsearch]
    simp only [Res.bind_ok, r1, r2]
    rw [show (a ++ Entry.folder n fr ch :: t ++ b)[a.length]? = some (.folder n fr ch) by
      simp]
    simp only [openTimedEntry, w2, Res.bind_ok, hS]
    rw [if_neg hty]
    have hsteps' : a.length + (Entry.folder n fr ch :: t).length - 1 - a.length + 1 =
        (Entry.folder n fr ch :: t).length := by simp
    rw [hsteps']
    have htake : List.take (Entry.folder n fr ch :: t).length
        (List.drop a.length (a ++ Entry.folder n fr ch :: t ++ b)) =
        Entry.folder n fr ch :: t := by
      rw [List.append_assoc, List.drop_left, List.take_left]
    rw [htake]
    have := readSteps_spec bf.files w p (v :: cs) w1 S (Entry.folder n fr ch :: t) (pl :: pays) 0 []
      hsteps (by simp)
    simp only [List.nil_append] at this
    rw [this]
    rfl

end Dyna
