import Verif.PyBinout
import Verif.Props.BinoutSession
import Verif.Props.BinoutSimple
/-!
# C81: `Binout` in Python

Reading a path in Python gives the values of the variable, one array per time step, or the names in a
folder. The location a path leads to is that of C61 (`Walk`).
-/

namespace Dyna.PyBin

open Dyna

/-! ## Specification -/

/-- Specification: the path leads to the location `target` (through time steps if `timed`). Without
components it leads to the root; otherwise the first component is looked for in the root and the others as in
C61. -/
def Leads (files : List SrcFile) (path : Bytes) (target : List Bytes) (timed : Bool) : Prop :=
  (components path = [] ∧ target = [] ∧ timed = false) ∨
  ∃ c cs shown, components path = c :: cs ∧ Present files [c] ∧ Walk files [c] cs shown target timed

/-- Specification: paths that can be passed as C strings; the empty path is `c81_empty_path`. -/
def Plain (path : Bytes) : Prop := path ≠ [] ∧ 0 ∉ path ∧ ∀ c ∈ path, c < 256

/-- Specification: the values of `w` bytes that lie one after the other in `data`. -/
def ValuesOf (w : Nat) (data : Bytes) (l : List Bytes) : Prop := (∀ e ∈ l, e.length = w) ∧ l.flatten = data

/-- Specification: the list of the names of what exists directly below `q`, in increasing order. -/
def NamesIn (files : List SrcFile) (q : List Bytes) (names : List Bytes) : Prop :=
  names.Pairwise LexLt ∧ ∀ n, n ∈ names ↔ Present files (q ++ [n])

/-- Specification: `d000001` is the first and `metadata` the last name below `q`. -/
def Framed (files : List SrcFile) (q : List Bytes) : Prop :=
  Present files (q ++ [bs "d000001"]) ∧ Present files (q ++ [bs "metadata"]) ∧
  ∀ n, Present files (q ++ [n]) → ¬ LexLt n (bs "d000001") ∧ ¬ LexLt (bs "metadata") n

/-! ## Lemmas -/

/-- What is known about an opened set of well formed files. -/
structure Core (files : List SrcFile) (b : BinFile) : Prop where
  simple : ∀ path, Plain path → SimpleOk files b.kids path
  kids : ∀ path : Bytes, path.head? = some SEP → Plain path → IsDir files (components path) →
    ∃ names, getChildren b.kids path = .ok (some names) ∧ NamesIn files (components path) names
  read : ∀ (path : Bytes) (ty : Nat), path.head? = some SEP → Plain path →
    binoutRead b path ty =
      match lastVar (allVars files) (components path) with
      | none => .err
      | some (ty', payload) =>
        if ty' = ty ∧ payload ≠ [] then .ok (payload, payload.length / typeSize ty) else .err
  prefixDir : ∀ q r, r ≠ [] → Present files (q ++ r) → IsDir files q
  noVarDir : ∀ q, IsDir files q → lastVar (allVars files) q = none

theorem core_of {files : List SrcFile} (h : GoodSet files) {b : BinFile}
    (k2 : Represents (allOps 0 files) b.kids)
    (hr : ∀ (path : Bytes) (ty : Nat), path.head? = some SEP → 0 ∉ path → (∀ c ∈ path, c < 256) →
        binoutRead b path ty =
          match lastVar (allVars files) (components path) with
          | none => .err
          | some (ty', payload) =>
            if ty' = ty ∧ payload ≠ [] then .ok (payload, payload.length / typeSize ty) else .err)
    (hp : PlainNames files) : Core files b := by
  have ht := treeOf_represents h k2
  refine ⟨fun path a => simple_tree h ht hp path a.1 a.2.1 a.2.2, ?_,
    fun path ty h1 a => hr path ty h1 a.2.1 a.2.2, fun q r hne hq => present_prefix ht hne hq, ?_⟩
  · intro p habs a hd
    obtain ⟨c1, c2⟩ := getChildren_of_represents k2 (asciiOps_allOps files 0 h.ok) p habs a.2.1
      (components_bytes p a.2.2)
    have hf := (isDir_iff files _).1 hd
    obtain ⟨names, n1, n2, n3⟩ := c1 hf (by
      rw [lastWrite_none]
      intro w hw he
      exact noClash_allOps files h w hw (he ▸ hf))
    refine ⟨names, n1, n2, fun n => ?_⟩
    rw [n3, present_write h]
  · intro q hd
    cases hv : lastVar (allVars files) q with
    | none => rfl
    | some x =>
      obtain ⟨ty, pl⟩ := x
      obtain ⟨i, i1, _⟩ := ht.var _ _ _ hv
      rw [ht.dir q hd] at i1
      cases i1

theorem core_open (files : List SrcFile) (h : GoodSet files) (hne : files ≠ []) (hp : PlainNames files) :
    ∃ n, ∀ fuel, n ≤ fuel → ∀ pattern, ∃ b,
      binoutOpen fuel pattern (files.map (fun s => (s.name, some s.content))) = .ok (some b) ∧
      Core files b := by
  obtain ⟨n, hn⟩ := open_good files h hne
  obtain ⟨m, hm⟩ := read_good files h hne
  refine ⟨max n m, fun fuel hf pattern => ?_⟩
  obtain ⟨kids, k1, k2⟩ := hn fuel (by omega) pattern
  obtain ⟨b', m1, m2⟩ := hm fuel (by omega) pattern
  have hbb : b' = ⟨kids, files.map (fun s => some s.content), none⟩ := by
    rw [k1] at m1; simpa using m1.symm
  subst hbb
  exact ⟨_, k1, core_of h k2 m2 hp⟩

/-- The real path of a location that is reached without time steps. -/
theorem leads_real {files : List SrcFile} {b : BinFile} (C : Core files b) {path : Bytes} (a : Plain path)
    {target : List Bytes} (hl : Leads files path target false) :
    ∃ real, simplePathToReal b.kids path = .ok (some real, typeAt files target, false) ∧
      real.head? = some SEP ∧ Plain real ∧ components real = target ∧ Present files target := by
  have hs := C.simple path a
  rcases hl with ⟨h1, rfl, _⟩ | ⟨c, cs, shown, hc, hpc, hw⟩
  · refine ⟨bs "/", ?_, by decide +kernel, by unfold Plain; decide +kernel, by decide +kernel, .inl (.inl rfl)⟩
    rw [hs.1 h1]
    have : typeAt files [] = 255 := by
      unfold typeAt
      rw [C.noVarDir [] (.inl rfl)]
    rw [this]
  · have htg := hw.target_eq rfl
    have hnames : ∀ x ∈ c :: shown, x ∈ components path ∨ x = bs "metadata" := by
      intro x hx
      rw [hc]
      rcases List.mem_cons.1 hx with rfl | hx
      · simp
      · rcases hw.shown_mem x hx with h | h
        · simp [h]
        · exact .inr h
    have hgood : ∀ x ∈ c :: shown, x ≠ [] ∧ SEP ∉ x := by
      intro x hx
      rcases hnames x hx with h | rfl
      · exact ⟨(components_mem h).1, (components_mem h).2.1⟩
      · decide +kernel
    have hbytes : ∀ x ∈ render (c :: shown), x ≠ 0 ∧ x < 256 := by
      intro x hx
      simp only [render, List.mem_flatMap, List.mem_cons] at hx
      obtain ⟨n, hn, hx⟩ := hx
      rcases hx with rfl | hx
      · decide +kernel
      · rcases hnames n (by simpa using hn) with h | rfl
        · have := (components_mem h).2.2 x hx
          exact ⟨fun e => a.2.1 (e ▸ this), a.2.2 x this⟩
        · revert x; decide +kernel
    refine ⟨render (c :: shown), (hs.2 c cs hc).1 shown target false hpc hw, by simp [render], ⟨by simp [render],
      fun hx => (hbytes 0 hx).1 rfl, fun x hx => (hbytes x hx).2⟩, ?_, ?_⟩
    · rw [components_render _ hgood, htg]; rfl
    · have key : ∀ {loc cs shown target t}, Walk files loc cs shown target t → Present files loc →
          Present files target := by
        intro loc cs shown target t w
        induction w with
        | nil => exact id
        | cons e _ ih =>
          intro _
          apply ih
          cases e with
          | direct x => exact x
          | metadata _ x => exact x
          | step _ _ _ _ x => exact x
      exact key hw hpc

theorem no_leads {files : List SrcFile} {b : BinFile} (C : Core files b) {path : Bytes} (a : Plain path)
    (hn : ¬ ∃ target timed, Leads files path target timed) :
    ∃ timed, simplePathToReal b.kids path = .ok (none, 255, timed) := by
  have hs := C.simple path a
  cases hc : components path with
  | nil => exact absurd ⟨[], false, .inl ⟨hc, rfl, rfl⟩⟩ hn
  | cons c cs =>
    apply (hs.2 c cs hc).2
    rintro ⟨shown, target, timed, h1, h2⟩
    exact hn ⟨target, timed, .inr ⟨c, cs, shown, hc, h1, h2⟩⟩

theorem leads_timed {files : List SrcFile} {b : BinFile} (C : Core files b) {path : Bytes} (a : Plain path)
    {target : List Bytes} (hl : Leads files path target true) :
    ∃ real, simplePathToReal b.kids path = .ok (some real, typeAt files target, true) := by
  rcases hl with ⟨_, _, h3⟩ | ⟨c, cs, shown, hc, hpc, hw⟩
  · cases h3
  · exact ⟨_, ((C.simple path a).2 c cs hc).1 shown target true hpc hw⟩

theorem defined_some (l : Bytes) : defined (l.map some) = .ok l := by
  induction l with
  | nil => rfl
  | cons c r ih => simp [defined, ih]

theorem elements_eq (w : Nat) (post : Bytes) : ∀ (n start : Nat) (pre mid : Bytes), pre.length = start * w →
    mid.length = n * w → ∃ l, elements w ((pre ++ mid ++ post).map some) n start = .ok l ∧ ValuesOf w mid l ∧
      l.length = n := by
  intro n
  induction n with
  | zero =>
    intro start pre mid _ h
    have : mid = [] := List.length_eq_zero_iff.1 (by omega)
    subst this
    exact ⟨[], rfl, ⟨by simp, rfl⟩, rfl⟩
  | succ n ih =>
    intro start pre mid hpre hmid
    have e1 : (start + 1) * w = start * w + w := by rw [Nat.add_mul]; omega
    have e2 : (n + 1) * w = n * w + w := by rw [Nat.add_mul]; omega
    have hw : w ≤ mid.length := by omega
    obtain ⟨l, l1, l2, l3⟩ := ih (start + 1) (pre ++ mid.take w) (mid.drop w)
      (by simp [List.length_take]; omega) (by simp; omega)
    have hcat : pre ++ mid.take w ++ mid.drop w ++ post = pre ++ mid ++ post := by
      simp [List.append_assoc]
    rw [hcat] at l1
    have hel : element w ((pre ++ mid ++ post).map some) start = .ok (mid.take w) := by
      unfold element
      rw [if_pos (by simp; omega), ← List.map_drop, ← List.map_take, defined_some]
      congr 1
      rw [List.append_assoc, ← hpre, List.drop_left, List.take_append_of_le_length hw]
    refine ⟨mid.take w :: l, ?_, ⟨?_, ?_⟩, by simp [l3]⟩
    · unfold elements
      rw [hel, l1]
      rfl
    · intro e he
      rcases List.mem_cons.1 he with rfl | he
      · simp [List.length_take]; omega
      · exact l2.1 e he
    · rw [List.flatten_cons, l2.2, List.take_append_drop]

theorem rows_eq (w v : Nat) : ∀ (parts : List Bytes) (t : Nat) (pre : Bytes), pre.length = t * (v * w) →
    (∀ p ∈ parts, p.length = v * w) →
    ∃ r, rows w ((pre ++ parts.flatten).map some) v parts.length t = .ok r ∧
      List.Forall₂ (fun p l => ValuesOf w p l) parts r := by
  intro parts
  induction parts with
  | nil => intro t pre _ _; exact ⟨[], rfl, .nil⟩
  | cons p ps ih =>
    intro t pre hpre hlen
    have hp := hlen p (by simp)
    have e1 : (t + 1) * (v * w) = t * (v * w) + v * w := by rw [Nat.add_mul]; omega
    obtain ⟨r, r1, r2⟩ := ih (t + 1) (pre ++ p) (by simp; omega) (fun q hq => hlen q (by simp [hq]))
    obtain ⟨l, l1, l2, _⟩ := elements_eq w ps.flatten v (t * v) pre p (by rw [hpre, Nat.mul_assoc]) hp
    refine ⟨l :: r, ?_, .cons l2 r2⟩
    simp only [List.flatten_cons, List.length_cons]
    unfold rows
    rw [← List.append_assoc, l1, r1]
    rfl

theorem insertName_perm (a : Bytes) (l : List Bytes) : (insertName a l).Perm (a :: l) := by
  induction l with
  | nil => exact .refl _
  | cons b r ih =>
    unfold insertName
    split
    · exact (List.Perm.cons b ih).trans (List.Perm.swap a b r)
    · exact .refl _

theorem sortNames_perm (l : List Bytes) : (sortNames l).Perm l := by
  induction l with
  | nil => exact .refl _
  | cons a r ih => exact (insertName_perm a _).trans (List.Perm.cons a ih)

theorem insertName_sorted (a : Bytes) (l : List Bytes) (h : l.Pairwise (fun x y => ¬ LexLt y x)) :
    (insertName a l).Pairwise (fun x y => ¬ LexLt y x) := by
  induction l with
  | nil => simp [insertName]
  | cons b r ih =>
    obtain ⟨h1, h2⟩ := List.pairwise_cons.1 h
    unfold insertName
    split
    · rename_i hlt
      refine List.pairwise_cons.2 ⟨fun x hx => ?_, ih h2⟩
      rcases List.mem_cons.1 ((insertName_perm a r).mem_iff.1 hx) with rfl | hx
      · exact fun h => LexLt.asymm hlt h
      · exact h1 x hx
    · rename_i hlt
      refine List.pairwise_cons.2 ⟨fun x hx => ?_, h⟩
      rcases List.mem_cons.1 hx with rfl | hx
      · exact hlt
      · intro hxa
        rcases LexLt.total b a with h3 | h3 | h3
        · exact hlt h3
        · subst h3; exact h1 x hx hxa
        · exact h1 x hx (LexLt.trans hxa h3)

theorem sortNames_sorted (l : List Bytes) : (sortNames l).Pairwise (fun x y => ¬ LexLt y x) := by
  induction l with
  | nil => simp [sortNames]
  | cons a r ih => exact insertName_sorted a _ ih

/-- The last name of an increasing list is not smaller than any of them, the first one not greater. -/
theorem sorted_ends {l : List Bytes} (h : l.Pairwise LexLt) {f z : Bytes} (hf : l.head? = some f)
    (hz : l.getLast? = some z) : ∀ n ∈ l, ¬ LexLt n f ∧ ¬ LexLt z n := by
  intro n hn
  constructor
  · cases l with
    | nil => cases hf
    | cons x xs =>
      simp at hf; subst hf
      rcases List.mem_cons.1 hn with rfl | hn
      · exact LexLt.irrefl _
      · exact fun hh => LexLt.asymm hh ((List.pairwise_cons.1 h).1 n hn)
  · have hne : l ≠ [] := by rintro rfl; cases hn
    have e : l = l.dropLast ++ [z] := by
      have := List.dropLast_append_getLast hne
      rw [List.getLast?_eq_some_getLast hne] at hz
      simp at hz
      rw [hz] at this
      exact this.symm
    rw [e] at hn h
    rcases List.mem_append.1 hn with hn | hn
    · exact fun hh => LexLt.asymm hh ((List.pairwise_append.1 h).2.2 n hn z (by simp))
    · simp at hn; subst hn; exact LexLt.irrefl _

theorem framed_iff {files : List SrcFile} {q names : List Bytes} (hn : NamesIn files q names) {f z : Bytes}
    (hf : names.head? = some f) (hz : names.getLast? = some z) :
    Framed files q ↔ f = bs "d000001" ∧ z = bs "metadata" := by
  have hends := sorted_ends hn.1 hf hz
  have hfm : f ∈ names := List.mem_of_head? hf
  have hzm : z ∈ names := List.mem_of_getLast? hz
  constructor
  · rintro ⟨h1, h2, h3⟩
    constructor
    · have a1 := (h3 f ((hn.2 f).1 hfm)).1
      have a2 := (hends _ ((hn.2 _).2 h1)).1
      rcases LexLt.total f (bs "d000001") with h | h | h
      · exact absurd h a1
      · exact h
      · exact absurd h a2
    · have a1 := (h3 z ((hn.2 z).1 hzm)).2
      have a2 := (hends _ ((hn.2 _).2 h2)).2
      rcases LexLt.total z (bs "metadata") with h | h | h
      · exact absurd h a2
      · exact h
      · exact absurd h a1
  · rintro ⟨rfl, rfl⟩
    exact ⟨(hn.2 _).1 hfm, (hn.2 _).1 hzm, fun n h => hends n ((hn.2 n).2 h)⟩

/-- The children of a folder below the real path. -/
theorem sub_children {files : List SrcFile} {b : BinFile} (C : Core files b) {real n : Bytes}
    (habs : real.head? = some SEP) (a : Plain real) (hn : Plain n) (hs : SEP ∉ n)
    (hd : IsDir files (components real ++ [n])) :
    ∃ names, children b (real ++ SEP :: n) = .ok names ∧ NamesIn files (components real ++ [n]) names := by
  have e : components (real ++ SEP :: n) = components real ++ [n] := components_snoc real n hs hn.1
  have a' : Plain (real ++ SEP :: n) := by
    refine ⟨by simp, ?_, ?_⟩
    · intro h
      rcases List.mem_append.1 h with h | h
      · exact a.2.1 h
      · rcases List.mem_cons.1 h with h | h
        · exact absurd h (by decide)
        · exact hn.2.1 h
    · intro c h
      rcases List.mem_append.1 h with h | h
      · exact a.2.2 c h
      · rcases List.mem_cons.1 h with h | h
        · subst h; decide
        · exact hn.2.2 c h
  obtain ⟨names, n1, n2⟩ := C.kids (real ++ SEP :: n)
    (by cases real with
        | nil => cases habs
        | cons x xs => simpa using habs) a' (by rw [e]; exact hd)
  rw [e] at n2
  refine ⟨names, ?_, n2⟩
  unfold children
  rw [n1]
  rfl

theorem read_folder {files : List SrcFile} {b : BinFile} (C : Core files b) (hp : PlainNames files) {path : Bytes}
    (a : Plain path) {q : List Bytes} (hl : Leads files path q false) (hd : IsDir files q) :
    ((∃ n, Present files (q ++ [n])) → ¬ Framed files q →
      ∃ names, NamesIn files q names ∧ PyBin.read b path = .ok (.names names)) ∧
    (Framed files q → ∃ names inMeta inStep, PyBin.read b path = .ok (.names names) ∧
      NamesIn files (q ++ [bs "metadata"]) inMeta ∧ NamesIn files (q ++ [bs "d000001"]) inStep ∧
      names.Pairwise (fun x y => ¬ LexLt y x) ∧ names.Perm (inMeta ++ inStep)) ∧
    ((¬ ∃ n, Present files (q ++ [n])) → PyBin.read b path = .ub) := by
  obtain ⟨real, r1, r2, r3, r4, _⟩ := leads_real C a hl
  have hty : typeAt files q = 255 := by
    unfold typeAt
    rw [C.noVarDir q hd]
  rw [hty] at r1
  have hread : PyBin.read b path = readFolder b real := by
    unfold PyBin.read
    rw [r1]
    simp
  obtain ⟨names, n1, n2⟩ := C.kids real r2 r3 (by rw [r4]; exact hd)
  rw [r4] at n2
  have hch : children b real = .ok names := by
    unfold children
    rw [n1]
    rfl
  rw [hread]
  unfold readFolder
  rw [hch]
  simp only [Res.bind_ok]
  cases hnames : names with
  | nil =>
    subst hnames
    have hno : ¬ ∃ n, Present files (q ++ [n]) := by
      rintro ⟨n, h⟩
      have := (n2.2 n).2 h
      simp at this
    refine ⟨fun h => absurd h hno, fun h => absurd ⟨_, h.1⟩ hno, fun _ => ?_⟩
    simp
  | cons f rest =>
    rw [← hnames]
    have hf : names.head? = some f := by rw [hnames]; rfl
    have hne : names ≠ [] := by rw [hnames]; simp
    have hz : names.getLast? = some (names.getLast hne) := List.getLast?_eq_some_getLast hne
    have hfr := framed_iff n2 hf hz
    rw [hf, hz]
    simp only
    have hyes : ∃ n, Present files (q ++ [n]) := ⟨f, (n2.2 f).1 (by rw [hnames]; simp)⟩
    by_cases hF : Framed files q
    · obtain ⟨e1, e2⟩ := hfr.1 hF
      refine ⟨fun _ h => absurd hF h, fun _ => ?_, fun h => absurd hyes h⟩
      rw [if_pos (by rw [e1, e2]; decide +kernel)]
      have dir : ∀ n, (n = bs "metadata" ∨ IsStepName n) → Present files (q ++ [n]) → IsDir files (q ++ [n]) := by
        intro n hn h
        rcases h with h | h
        · exact h
        · obtain ⟨p1, p2⟩ := hp q n h
          rcases hn with hn | hn
          · exact absurd hn p1
          · exact absurd hn p2
      have hm := dir _ (.inl rfl) hF.2.1
      have hs := dir _ (.inr ((isDString_iff _).1 (by decide +kernel))) hF.1
      rw [← r4] at hm hs
      obtain ⟨m, m1, m2⟩ := sub_children C r2 r3 (by unfold Plain; decide +kernel) (by decide +kernel) hm
      obtain ⟨s, s1, s2⟩ := sub_children C r2 r3 (by unfold Plain; decide +kernel) (by decide +kernel) hs
      have em : real ++ bs "/metadata" = real ++ SEP :: bs "metadata" := by congr 1
      have es : real ++ bs "/d000001" = real ++ SEP :: bs "d000001" := by congr 1
      rw [em, es, m1, s1]
      rw [r4] at m2 s2
      refine ⟨sortNames (m ++ s), m, s, rfl, m2, s2, sortNames_sorted _, sortNames_perm _⟩
    · have hneg : ¬ (names.getLast hne == bs "metadata" && f == bs "d000001") = true := by
        intro hh
        simp only [Bool.and_eq_true, beq_iff_eq] at hh
        exact hF (hfr.2 ⟨hh.2, hh.1⟩)
      refine ⟨fun _ _ => ⟨names, n2, ?_⟩, fun h => absurd h hF, fun h => absurd hyes h⟩
      rw [if_neg hneg]

theorem width_range {ty w : Nat} (h : TypeWidth ty w) : 1 ≤ ty ∧ ty ≤ 10 ∧ 0 < w := by
  cases h <;> decide

theorem read_variable {files : List SrcFile} {b : BinFile} (C : Core files b) {path : Bytes}
    (a : Plain path) {q : List Bytes} (hl : Leads files path q false) {ty w : Nat} (hw : TypeWidth ty w)
    {payload : Bytes} (hv : lastVar (allVars files) q = some (ty, payload)) :
    (payload ≠ [] → ∃ l, PyBin.read b path = .ok (.array ty l) ∧
      ValuesOf w (payload.take (payload.length / w * w)) l ∧ l.length = payload.length / w) ∧
    (payload = [] → PyBin.read b path = .err) := by
  obtain ⟨real, r1, r2, r3, r4, _⟩ := leads_real C a hl
  have hty : typeAt files q = ty := by
    unfold typeAt
    rw [hv]
  rw [hty] at r1
  obtain ⟨t1, t2, t3⟩ := width_range hw
  have hr := C.read real ty r2 r3
  rw [r4, hv] at hr
  simp only at hr
  constructor
  · intro hne
    rw [if_pos ⟨trivial, hne⟩, hw.size] at hr
    have hle : payload.length / w * w ≤ payload.length := Nat.div_mul_le_self _ _
    obtain ⟨l, l1, l2, l3⟩ := elements_eq w (payload.drop (payload.length / w * w)) (payload.length / w) 0 []
      (payload.take (payload.length / w * w)) (by simp) (by simp [List.length_take]; omega)
    refine ⟨l, ?_, l2, l3⟩
    rw [List.nil_append, List.take_append_drop] at l1
    unfold PyBin.read
    rw [r1]
    simp only [Res.bind_ok]
    rw [if_neg (by simp), if_pos ⟨t1, t2⟩, hr]
    simp only [Res.bind_ok, hw.size, l1]
  · intro he
    rw [if_neg (by simp [he])] at hr
    unfold PyBin.read
    rw [r1]
    simp only [Res.bind_ok]
    rw [if_neg (by simp), if_pos ⟨t1, t2⟩, hr]
    rfl

theorem Walk.append {files : List SrcFile} {cs loc shown target s2 t2 r : List Bytes} {t b2 : Bool}
    (h1 : Walk files loc cs shown target t) (h2 : Walk files target r s2 t2 b2) :
    Walk files loc (cs ++ r) (shown ++ s2) t2 (t || b2) := by
  induction h1 with
  | nil => simpa using h2
  | cons e _ ih =>
    have := Walk.cons e (ih h2)
    simpa [Bool.or_assoc] using this

theorem leads_exists {files : List SrcFile} {b : BinFile} (C : Core files b) {path : Bytes} (a : Plain path) :
    ((∃ target timed, Leads files path target timed) → variableExists b path = .ok true) ∧
    ((¬ ∃ target timed, Leads files path target timed) → variableExists b path = .ok false) := by
  constructor
  · rintro ⟨target, timed, hl⟩
    unfold variableExists
    cases timed with
    | false =>
      obtain ⟨real, r1, _⟩ := leads_real C a hl
      rw [r1]; rfl
    | true =>
      obtain ⟨real, r1⟩ := leads_timed C a hl
      rw [r1]; rfl
  · intro hn
    obtain ⟨t, e⟩ := no_leads C a hn
    unfold variableExists
    rw [e]; rfl

/-- A name below the location, in its `metadata` or in its first time step can be reached. -/
theorem leads_name {files : List SrcFile} {path n : Bytes} {q : List Bytes}
    (hl : Leads files path q false) (hn : n ≠ []) (hs : SEP ∉ n)
    (hx : Present files (q ++ [n]) ∨ (q ≠ [] ∧ (Present files (q ++ [bs "metadata", n]) ∨
      ∃ d, FirstStep files q d ∧ Present files (q ++ [d, n])))) :
    ∃ target timed, Leads files (path ++ SEP :: n) target timed := by
  have e : components (path ++ SEP :: n) = components path ++ [n] := components_snoc path n hs hn
  rcases hl with ⟨h1, rfl, _⟩ | ⟨c, cs, shown, hc, hpc, hw⟩
  · rcases hx with hx | hx
    · exact ⟨[n], false, .inr ⟨n, [], [], by rw [e, h1]; rfl, hx, Walk.nil _⟩⟩
    · exact absurd rfl hx.1
  · have key : ∃ l s t, Enter files q n l s t := by
      by_cases p1 : Present files (q ++ [n])
      · exact ⟨_, _, _, .direct p1⟩
      · rcases hx with hx | ⟨_, hx⟩
        · exact absurd hx p1
        · by_cases p2 : Present files (q ++ [bs "metadata", n])
          · exact ⟨_, _, _, .metadata p1 p2⟩
          · rcases hx with hx | ⟨d, d1, d2⟩
            · exact absurd hx p2
            · exact ⟨_, _, _, .step d p1 p2 d1 d2⟩
    obtain ⟨l, s, t, hE⟩ := key
    exact ⟨_, _, .inr ⟨c, cs ++ [n], _, by rw [e, hc]; rfl, hpc, Walk.append hw (Walk.cons hE (Walk.nil _))⟩⟩

theorem forall₂_of_map {α β γ : Type} {R : β → γ → Prop} {f : α → β} : ∀ (l : List α) (r : List γ),
    List.Forall₂ R (l.map f) r → List.Forall₂ (fun a c => R (f a) c) l r
  | [], r, h => by cases h; exact .nil
  | a :: l, r, h => by
    cases h with
    | cons h1 h2 => exact .cons h1 (forall₂_of_map l _ h2)

/-! ## C81 -/

/-- C81. A path that leads to a variable (not through time steps): `Binout.read` returns the values of its
payload in order, as an array of its type; a variable without data is an exception. (If the payload does not
consist of whole values, the rest is not part of the array.) -/
theorem c81_variable (files : List SrcFile) (h : GoodSet files) (hne : files ≠ [])
    (hp : PlainNames files) :
    ∃ n, ∀ fuel, n ≤ fuel → ∀ pattern, ∃ b,
      binoutOpen fuel pattern (files.map (fun s => (s.name, some s.content))) = .ok (some b) ∧
      ∀ (path : Bytes) (q : List Bytes) (ty w : Nat) (payload : Bytes), Plain path →
        Leads files path q false → TypeWidth ty w → lastVar (allVars files) q = some (ty, payload) →
        (payload ≠ [] → ∃ l, PyBin.read b path = .ok (.array ty l) ∧
          ValuesOf w (payload.take (payload.length / w * w)) l ∧ l.length = payload.length / w) ∧
        (payload = [] → PyBin.read b path = .err) := by
  obtain ⟨n, hn⟩ := core_open files h hne hp
  refine ⟨n, fun fuel hf pattern => ?_⟩
  obtain ⟨b, b1, C⟩ := hn fuel hf pattern
  exact ⟨b, b1, fun path q ty w payload a hl hw hv => read_variable C a hl hw hv⟩

/-- C81. A path that leads to a folder in which something exists: `Binout.read` returns the names in the
folder in increasing order; if the first one is `d000001` and the last one `metadata`, it returns instead the
names in these two folders, in increasing order (a name that is in both of them twice). Missing: folders
without anything in them (`c81_empty_folder`). -/
theorem c81_folder_partial (files : List SrcFile) (h : GoodSet files) (hne : files ≠ [])
    (hp : PlainNames files) :
    ∃ n, ∀ fuel, n ≤ fuel → ∀ pattern, ∃ b,
      binoutOpen fuel pattern (files.map (fun s => (s.name, some s.content))) = .ok (some b) ∧
      ∀ (path : Bytes) (q : List Bytes), Plain path → Leads files path q false → IsDir files q →
        ((∃ n, Present files (q ++ [n])) → ¬ Framed files q →
          ∃ names, NamesIn files q names ∧ PyBin.read b path = .ok (.names names)) ∧
        (Framed files q → ∃ names inMeta inStep, PyBin.read b path = .ok (.names names) ∧
          NamesIn files (q ++ [bs "metadata"]) inMeta ∧ NamesIn files (q ++ [bs "d000001"]) inStep ∧
          names.Pairwise (fun x y => ¬ LexLt y x) ∧ names.Perm (inMeta ++ inStep)) := by
  obtain ⟨n, hn⟩ := core_open files h hne hp
  refine ⟨n, fun fuel hf pattern => ?_⟩
  obtain ⟨b, b1, C⟩ := hn fuel hf pattern
  exact ⟨b, b1, fun path q a hl hd => ⟨(read_folder C hp a hl hd).1, (read_folder C hp a hl hd).2.1⟩⟩

/-- C81, violation: reading a folder without anything in it (for example the root of a binout without records)
accesses elements of an empty vector. -/
theorem c81_empty_folder (files : List SrcFile) (h : GoodSet files) (hne : files ≠ [])
    (hp : PlainNames files) :
    ∃ n, ∀ fuel, n ≤ fuel → ∀ pattern, ∃ b,
      binoutOpen fuel pattern (files.map (fun s => (s.name, some s.content))) = .ok (some b) ∧
      ∀ (path : Bytes) (q : List Bytes), Plain path → Leads files path q false → IsDir files q →
        (¬ ∃ n, Present files (q ++ [n])) → PyBin.read b path = .ub := by
  obtain ⟨n, hn⟩ := core_open files h hne hp
  refine ⟨n, fun fuel hf pattern => ?_⟩
  obtain ⟨b, b1, C⟩ := hn fuel hf pattern
  exact ⟨b, b1, fun path q a hl hd => (read_folder C hp a hl hd).2.2⟩

/-- C81. Every name in the list that `Binout.read` returns for a folder can be appended to the path: the
longer path leads to something (`variable_exists` is true). (The root itself is searched without `metadata` and time
steps, so it must not be framed by them.) -/
theorem c81_listed_names (files : List SrcFile) (h : GoodSet files) (hne : files ≠ [])
    (hp : PlainNames files) :
    ∃ n, ∀ fuel, n ≤ fuel → ∀ pattern, ∃ b,
      binoutOpen fuel pattern (files.map (fun s => (s.name, some s.content))) = .ok (some b) ∧
      ∀ (path : Bytes) (q names : List Bytes), Plain path → Leads files path q false → IsDir files q →
        (q = [] → ¬ Framed files q) → PyBin.read b path = .ok (.names names) → ∀ n ∈ names, Plain n → SEP ∉ n →
        (∃ target timed, Leads files (path ++ SEP :: n) target timed) ∧
        variableExists b (path ++ SEP :: n) = .ok true := by
  obtain ⟨n, hn⟩ := core_open files h hne hp
  refine ⟨n, fun fuel hf pattern => ?_⟩
  obtain ⟨b, b1, C⟩ := hn fuel hf pattern
  refine ⟨b, b1, fun path q names a hl hd hfr hr n hm hn hs => ?_⟩
  have hld : ∃ target timed, Leads files (path ++ SEP :: n) target timed := by
    obtain ⟨f1, f2, f3⟩ := read_folder C hp a hl hd
    by_cases hF : Framed files q
    · obtain ⟨names', m, s, e1, e2, e3, _, e5⟩ := f2 hF
      rw [hr] at e1
      simp only [Res.ok.injEq, Value.names.injEq] at e1
      subst e1
      have hq : q ≠ [] := fun hq => hfr hq hF
      apply leads_name hl hn.1 hs
      right
      refine ⟨hq, ?_⟩
      rcases List.mem_append.1 (e5.mem_iff.1 hm) with hmm | hmm
      · left
        have := (e2.2 n).1 hmm
        simpa using this
      · right
        have hpn := (e3.2 n).1 hmm
        refine ⟨bs "d000001", ⟨(isDString_iff _).1 (by decide +kernel), C.prefixDir _ _ (by simp) hpn, ?_⟩, by simpa using hpn⟩
        intro d' h1 h2
        rcases LexLt.total (bs "d000001") d' with h3 | h3 | h3
        · exact .inr h3
        · exact .inl h3.symm
        · exact absurd h3 (hF.2.2 d' (.inl h2)).1
    · apply leads_name hl hn.1 hs
      left
      by_cases hex : ∃ n, Present files (q ++ [n])
      · obtain ⟨names', e1, e2⟩ := f1 hex hF
        rw [hr] at e2
        simp only [Res.ok.injEq, Value.names.injEq] at e2
        subst e2
        exact (e1.2 n).1 hm
      · rw [f3 hex] at hr; cases hr
  refine ⟨hld, ?_⟩
  have a' : Plain (path ++ SEP :: n) := by
    refine ⟨by simp, ?_, ?_⟩
    · intro h
      rcases List.mem_append.1 h with h | h
      · exact a.2.1 h
      · rcases List.mem_cons.1 h with h | h
        · exact absurd h (by decide)
        · exact hn.2.1 h
    · intro c h
      rcases List.mem_append.1 h with h | h
      · exact a.2.2 c h
      · rcases List.mem_cons.1 h with h | h
        · subst h; decide
        · exact hn.2.2 c h
  exact (leads_exists C a').1 hld

/-- C81. A path that leads nowhere is an exception in `read`, `get_type_id` and `get_num_timesteps`, and
`variable_exists` is false. -/
theorem c81_missing (files : List SrcFile) (h : GoodSet files) (hne : files ≠ [])
    (hp : PlainNames files) :
    ∃ n, ∀ fuel, n ≤ fuel → ∀ pattern, ∃ b,
      binoutOpen fuel pattern (files.map (fun s => (s.name, some s.content))) = .ok (some b) ∧
      ∀ path : Bytes, Plain path → (¬ ∃ target timed, Leads files path target timed) →
        PyBin.read b path = .err ∧ typeId b path = .err ∧ numSteps b path = .err ∧
        variableExists b path = .ok false := by
  obtain ⟨n, hn⟩ := core_open files h hne hp
  refine ⟨n, fun fuel hf pattern => ?_⟩
  obtain ⟨b, b1, C⟩ := hn fuel hf pattern
  refine ⟨b, b1, fun path a hno => ?_⟩
  obtain ⟨t, e⟩ := no_leads C a hno
  refine ⟨?_, ?_, ?_, (leads_exists C a).2 hno⟩
  · unfold PyBin.read; rw [e]; rfl
  · unfold typeId; rw [e]; rfl
  · unfold numSteps; rw [e]; rfl

/-- C81. `variable_exists` is true and `get_type_id` is the type of the variable if the path leads to
something; for a folder the type is the invalid one (255). -/
theorem c81_type (files : List SrcFile) (h : GoodSet files) (hne : files ≠ [])
    (hp : PlainNames files) :
    ∃ n, ∀ fuel, n ≤ fuel → ∀ pattern, ∃ b,
      binoutOpen fuel pattern (files.map (fun s => (s.name, some s.content))) = .ok (some b) ∧
      ∀ (path : Bytes) (q : List Bytes) (timed : Bool), Plain path → Leads files path q timed →
        variableExists b path = .ok true ∧
        (∀ ty payload, lastVar (allVars files) q = some (ty, payload) → typeId b path = .ok ty) ∧
        (IsDir files q → typeId b path = .ok 255) := by
  obtain ⟨n, hn⟩ := core_open files h hne hp
  refine ⟨n, fun fuel hf pattern => ?_⟩
  obtain ⟨b, b1, C⟩ := hn fuel hf pattern
  refine ⟨b, b1, fun path q timed a hl => ⟨(leads_exists C a).1 ⟨_, _, hl⟩, ?_⟩⟩
  have hty : typeId b path = .ok (typeAt files q) := by
    unfold typeId
    cases timed with
    | false =>
      obtain ⟨real, r1, _⟩ := leads_real C a hl
      rw [r1]; rfl
    | true =>
      obtain ⟨real, r1⟩ := leads_timed C a hl
      rw [r1]; rfl
  rw [hty]
  constructor
  · intro ty pl hv
    unfold typeAt
    rw [hv]
  · intro hd
    unfold typeAt
    rw [C.noVarDir q hd]

/-- C81. A path that leads through a time step to a folder is an exception; the message does not fit into its
1024 bytes if the path has more than 975 characters. -/
theorem c81_folder_in_step (files : List SrcFile) (h : GoodSet files) (hne : files ≠ [])
    (hp : PlainNames files) :
    ∃ n, ∀ fuel, n ≤ fuel → ∀ pattern, ∃ b,
      binoutOpen fuel pattern (files.map (fun s => (s.name, some s.content))) = .ok (some b) ∧
      ∀ (path : Bytes) (q : List Bytes), Plain path → Leads files path q true → IsDir files q →
        (path.length ≤ 975 → PyBin.read b path = .err) ∧ (975 < path.length → PyBin.read b path = .ub) := by
  obtain ⟨n, hn⟩ := core_open files h hne hp
  refine ⟨n, fun fuel hf pattern => ?_⟩
  obtain ⟨b, b1, C⟩ := hn fuel hf pattern
  refine ⟨b, b1, fun path q a hl hd => ?_⟩
  obtain ⟨real, r1⟩ := leads_timed C a hl
  have hty : typeAt files q = 255 := by
    unfold typeAt
    rw [C.noVarDir q hd]
  rw [hty] at r1
  have e1 : (bs "Unable to read \"").length = 16 := by decide +kernel
  have e2 : (bs "\" because it has an invalid type").length = 32 := by decide +kernel
  unfold PyBin.read
  rw [r1]
  simp only [Res.bind_ok, List.length_append, e1, e2]
  constructor
  · intro hlen
    rw [if_pos trivial, if_neg (by omega), if_neg (by omega)]
  · intro hlen
    rw [if_pos trivial, if_neg (by omega), if_pos (by omega)]

/-- C81. A variable that is stored in the time steps of a folder (and neither in the folder nor in its
`metadata`), with the same number of whole values in all of them: `Binout.read` of folder/variable returns one
array per time step, in the order of the names of the time steps, with the values of that time step. Missing: see
C19 (time steps with different contents or sizes). -/
theorem c81_timed_partial (files : List SrcFile) (h : GoodSet files) (hne : files ≠ [])
    (hp : PlainNames files) :
    ∃ n, ∀ fuel, n ≤ fuel → ∀ pattern, ∃ b,
      binoutOpen fuel pattern (files.map (fun s => (s.name, some s.content))) = .ok (some b) ∧
      ∀ (path : Bytes) (q : List Bytes) (v : Bytes) (steps : List Bytes) (payload : Bytes → Bytes)
        (count ty w : Nat), TypeWidth ty w → Plain path →
        components path = q ++ [v] → q ≠ [] → IsDir files q →
        StepsOf files q steps → steps ≠ [] →
        (∀ n, Present files (q ++ [n]) → n.head? = some 100 → IsStepName n) →
        ¬ Present files (q ++ [v]) → ¬ Present files (q ++ [bs "metadata", v]) →
        (∀ d ∈ steps, ∀ d' ∈ steps, ∀ n,
          Present files (q ++ [d, n]) ↔ Present files (q ++ [d', n])) →
        (∀ d ∈ steps, lastVar (allVars files) (q ++ [d, v]) = some (ty, payload d)) →
        (∀ d ∈ steps, (payload d).length = count * w) → count ≠ 0 →
        ∃ r, PyBin.read b path = .ok (.table ty r) ∧
          List.Forall₂ (fun d l => ValuesOf w (payload d) l) steps r := by
  obtain ⟨n, hn⟩ := c61_timed_variable files h hne hp
  refine ⟨n, fun fuel hf pattern => ?_⟩
  obtain ⟨b, b1, hb⟩ := hn fuel hf pattern
  refine ⟨b, b1, fun path q v steps payload count ty w hw a hcomp hq hdir hst hsne hd hmiss hmeta hsame hvar hsz hc => ?_⟩
  obtain ⟨t1, t2, t3⟩ := width_range hw
  have hdiv : count * w / w = count := Nat.mul_div_cancel _ t3
  obtain ⟨s1, s2⟩ := hb path q v steps payload (count * w) ty w hw a.1 a.2.1 a.2.2 hcomp hq hdir hst hsne hd hmiss
    hmeta hsame hvar hsz (by rw [hdiv]; exact hc)
  rw [hdiv] at s2
  obtain ⟨r, r1, r2⟩ := rows_eq w count (steps.map payload) 0 [] (by simp) (by
    intro p hp
    obtain ⟨d, d1, rfl⟩ := List.mem_map.1 hp
    exact hsz d d1)
  rw [List.nil_append, List.length_map] at r1
  refine ⟨r, ?_, forall₂_of_map steps r r2⟩
  unfold PyBin.read
  rw [s1]
  simp only [Res.bind_ok]
  rw [if_pos trivial, if_pos ⟨t1, t2⟩, s2]
  simp only [Res.bind_ok, hw.size, r1]

/-- C81. `get_num_timesteps` of a path that leads to a folder is what C20 says of that folder. -/
theorem c81_num_timesteps_partial (files : List SrcFile) (h : GoodSet files) (hne : files ≠ [])
    (hp : PlainNames files) :
    ∃ n, ∀ fuel, n ≤ fuel → ∀ pattern, ∃ b,
      binoutOpen fuel pattern (files.map (fun s => (s.name, some s.content))) = .ok (some b) ∧
      ∀ (path : Bytes) (q steps : List Bytes), Plain path → Leads files path q false → IsDir files q →
        (∀ n, lastVar (allVars files) (q ++ [n]) = none) →
        (∀ n, IsDir files (q ++ [n]) → n.head? = some 100 → IsStepName n) →
        StepsOf files q steps → numSteps b path = .ok steps.length := by
  obtain ⟨n, hn⟩ := core_open files h hne hp
  obtain ⟨m, hm⟩ := c20_num_timesteps_partial files h hne
  refine ⟨max n m, fun fuel hf pattern => ?_⟩
  obtain ⟨b, b1, C⟩ := hn fuel (by omega) pattern
  obtain ⟨b', m1, m2⟩ := hm fuel (by omega) pattern
  have hbb : b' = b := by
    rw [b1] at m1; simpa using m1.symm
  subst hbb
  refine ⟨b', b1, fun path q steps a hl hd hnv hdn hst => ?_⟩
  obtain ⟨real, r1, r2, r3, r4, _⟩ := leads_real C a hl
  have := m2 real steps r2 r3.2.1 r3.2.2 (by rw [r4]; exact hd) (by rw [r4]; exact hnv) (by rw [r4]; exact hdn)
    (by rw [r4]; exact hst)
  unfold numSteps
  rw [r1]
  simp only [Res.bind_ok]
  rw [this]
  rfl

/-- C81, violation: the empty path is an assertion failure, not an exception. -/
theorem c81_empty_path (b : BinFile) : PyBin.read b [] = .abort ∧ variableExists b [] = .abort := by
  constructor <;> rfl

/-- C81, violation: a name that is a variable in `metadata` and in the time steps is listed twice. -/
theorem c81_name_twice :
    let b : BinFile := ⟨[.folder (bs "a") false [.folder (bs "d000001") false [.file (bs "x") ⟨1, 1, 0, 0⟩],
      .folder (bs "metadata") false [.file (bs "x") ⟨1, 1, 0, 0⟩]]], [some [7]], none⟩
    PyBin.read b (bs "a") = .ok (.names [bs "x", bs "x"]) := by
  decide +kernel

/-! ## A concrete case -/

/-- The sample file of C61: the folder `nodout` lists the names of `metadata` and `d000001`, and one of them
is read. -/
example : ∃ n, ∀ fuel, n ≤ fuel → ∀ pattern, ∃ b,
    binoutOpen fuel pattern [(sampleFile.name, some sampleFile.content)] = .ok (some b) ∧
    (∃ names, PyBin.read b (bs "nodout") = .ok (.names names) ∧ bs "ids" ∈ names ∧ bs "x" ∈ names) ∧
    ∃ l, PyBin.read b (bs "nodout/ids") = .ok (.array 4 l) := by
  obtain ⟨n, hn⟩ := core_open [sampleFile] sampleFile_good (by simp) sample_plain
  refine ⟨n, fun fuel hf pattern => ?_⟩
  obtain ⟨b, b1, C⟩ := hn fuel hf pattern
  have hdir : IsDir [sampleFile] [bs "nodout"] :=
    .inr ⟨[bs "nodout", bs "metadata"], by decide +kernel, by decide +kernel⟩
  have hno : ¬ Present [sampleFile] ([bs "nodout"] ++ [bs "ids"]) := by
    rintro (h | h)
    · rcases sample_dir2 _ h with h | h | h <;> exact absurd h (by decide +kernel)
    · exact h (sample_var2 _)
  refine ⟨b, b1, ?_, ?_⟩
  · have hl : Leads [sampleFile] (bs "nodout") [bs "nodout"] false :=
      .inr ⟨bs "nodout", [], [], by decide +kernel, .inl hdir, Walk.nil _⟩
    have hF : Framed [sampleFile] [bs "nodout"] := by
      refine ⟨.inl (.inr ⟨[bs "nodout", bs "d000001"], by decide +kernel, by decide +kernel⟩),
        .inl (.inr ⟨[bs "nodout", bs "metadata"], by decide +kernel, by decide +kernel⟩), fun n h => ?_⟩
      rcases h with h | h
      · rcases sample_dir2 _ h with rfl | rfl | rfl <;> decide +kernel
      · exact absurd (sample_var2 _) h
    obtain ⟨names, m, s, e1, e2, e3, _, e5⟩ :=
      (read_folder C sample_plain (by unfold Plain; decide +kernel) hl hdir).2.1 hF
    refine ⟨names, e1, ?_, ?_⟩
    · rw [e5.mem_iff, List.mem_append]
      exact .inl ((e2.2 _).2 (.inr (by decide +kernel)))
    · rw [e5.mem_iff, List.mem_append]
      exact .inr ((e3.2 _).2 (.inr (by decide +kernel)))
  · have hl : Leads [sampleFile] (bs "nodout/ids") [bs "nodout", bs "metadata", bs "ids"] false :=
      .inr ⟨bs "nodout", [bs "ids"], _, by decide +kernel, .inl hdir,
        Walk.cons (Enter.metadata hno (.inr (by decide +kernel))) (Walk.nil _)⟩
    have hv : lastVar (allVars [sampleFile]) [bs "nodout", bs "metadata", bs "ids"] =
        some (4, [1, 0, 0, 0, 0, 0, 0, 0]) := by decide +kernel
    obtain ⟨l, l1, _⟩ := (read_variable C (by unfold Plain; decide +kernel) hl TypeWidth.int64 hv).1 (by simp)
    exact ⟨l, l1⟩

/-- `nodout/x` of the sample file is one array per time step. -/
example : ∃ n, ∀ fuel, n ≤ fuel → ∀ pattern, ∃ b,
    binoutOpen fuel pattern [(sampleFile.name, some sampleFile.content)] = .ok (some b) ∧
    ∃ r, PyBin.read b (bs "nodout/x") = .ok (.table 9 r) ∧ r.map List.flatten = [[1, 2, 3, 4], [5, 6, 7, 8]] := by
  obtain ⟨n, hn⟩ := c81_timed_partial [sampleFile] sampleFile_good (by simp) sample_plain
  refine ⟨n, fun fuel hf pattern => ?_⟩
  obtain ⟨b, b1, b2⟩ := hn fuel hf pattern
  have hdir : IsDir [sampleFile] [bs "nodout"] :=
    .inr ⟨[bs "nodout", bs "metadata"], by decide +kernel, by decide +kernel⟩
  refine ⟨b, b1, ?_⟩
  obtain ⟨r, r1, r2⟩ := b2 (bs "nodout/x") [bs "nodout"] (bs "x") [bs "d000001", bs "d000002"]
    (fun d => if d = bs "d000001" then [1, 2, 3, 4] else [5, 6, 7, 8]) 1 9 4 TypeWidth.float32
    (by unfold Plain; decide +kernel) (by decide +kernel) (by simp) hdir sample_steps
    (by simp)
    (by
      intro n hp hh
      rcases hp with hp | hp
      · exact sample_head n hp hh
      · exact absurd (sample_var2 n) hp)
    (by
      rintro (hp | hp)
      · rcases sample_dir2 _ hp with h | h | h <;> exact absurd h (by decide +kernel)
      · exact hp (sample_var2 _))
    (by
      rintro (hp | hp)
      · unfold IsDir at hp
        rw [sample_folders] at hp
        rcases hp with hp | ⟨p, h2, h3⟩
        · simp at hp
        · simp only [List.mem_cons, List.not_mem_nil, or_false] at h2
          rcases h2 with rfl | rfl | rfl <;> simp at h3
      · exact hp (by decide +kernel))
    (by
      intro d hd d' hd' n
      have h1 := sample_present3 d hd n
      have h2 := sample_present3 d' hd' n
      simp only [List.cons_append, List.nil_append]
      rw [h1, h2])
    (by
      intro d hd
      simp only [List.mem_cons, List.not_mem_nil, or_false] at hd
      rcases hd with rfl | rfl <;> decide +kernel)
    (by
      intro d hd
      split <;> rfl)
    (by decide)
  refine ⟨r, r1, ?_⟩
  cases r2 with
  | cons a r2 =>
    cases r2 with
    | cons a' r2 =>
      cases r2
      simp only [List.map_cons, List.map_nil, a.2, a'.2]
      decide +kernel

/-- A file with an empty folder. Auxiliary, models no code. -/
def emptyFile : SrcFile := ⟨bs "binout0000", ⟨8, 8, 1⟩, [.cd (bs "/a")]⟩

theorem emptyFile_good : GoodSet [emptyFile] where
  ok := by
    intro s hs
    simp at hs
    subst hs
    exact {
      widths := by unfold Header.Ok emptyFile; decide +kernel
      recs := by intro r hr; simp [emptyFile] at hr; subst hr; unfold WRec.Ok; decide +kernel
      size := by decide +kernel
      cds := by simp only [emptyFile, cdsOk]; decide +kernel
      starts := trivial
      ascii := by intro r hr; simp [emptyFile] at hr; subst hr; unfold WRec.isAscii Ascii; decide +kernel }
  few := by decide
  noClash := by intro v hv; simp [allVars, emptyFile, varsOf] at hv

/-- Reading the empty folder of that file. -/
example : ∃ n, ∀ fuel, n ≤ fuel → ∀ pattern, ∃ b,
    binoutOpen fuel pattern [(emptyFile.name, some emptyFile.content)] = .ok (some b) ∧
    PyBin.read b (bs "a") = .ub := by
  have hno : ∀ q, lastVar (allVars [emptyFile]) q = none := by
    intro q
    simp [allVars, emptyFile, varsOf, lastVar]
  have hf : allFolders [emptyFile] = [[bs "a"]] := by decide +kernel
  obtain ⟨n, hn⟩ := c81_empty_folder [emptyFile] emptyFile_good (by simp) (fun q n h => absurd (hno _) h)
  refine ⟨n, fun fuel hfu pattern => ?_⟩
  obtain ⟨b, b1, b2⟩ := hn fuel hfu pattern
  have hdir : IsDir [emptyFile] [bs "a"] := .inr ⟨[bs "a"], by rw [hf]; simp, by simp⟩
  refine ⟨b, b1, b2 (bs "a") [bs "a"] (by unfold Plain; decide +kernel)
    (.inr ⟨bs "a", [], [], by decide +kernel, .inl hdir, Walk.nil _⟩) hdir ?_⟩
  rintro ⟨n, h | h⟩
  · unfold IsDir at h
    rw [hf] at h
    rcases h with h | ⟨p, h1, h2⟩
    · simp at h
    · simp at h1; subst h1; simp at h2
  · exact h (hno _)

end Dyna.PyBin
