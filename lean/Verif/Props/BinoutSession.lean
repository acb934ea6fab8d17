import Verif.BinoutSession
import Verif.Props.BinoutRead
/-!
# Properties of the calls on an open binout (C69)
-/

namespace Dyna

/-! ## Specification -/

/-- Specification: the text of the error for a path that is not a variable. -/
def notFoundText (path : Bytes) : Bytes := bs "\"" ++ path ++ bs "\" has not been found"

/-- Specification: the name of a type in error texts. -/
inductive TypeText : Nat → Bytes → Prop
  | int8 : TypeText 1 (bs "INT8")
  | int16 : TypeText 2 (bs "INT16")
  | int32 : TypeText 3 (bs "INT32")
  | int64 : TypeText 4 (bs "INT64")
  | uint8 : TypeText 5 (bs "UINT8")
  | uint16 : TypeText 6 (bs "UINT16")
  | uint32 : TypeText 7 (bs "UINT32")
  | uint64 : TypeText 8 (bs "UINT64")
  | float32 : TypeText 9 (bs "FLOAT32")
  | float64 : TypeText 10 (bs "FLOAT64")
  | other (t : Nat) : t = 0 ∨ 10 < t → TypeText t (bs "UNKNOWN")

/-- Specification: what a call on a set of files has to answer, with the error string before and after. -/
def Correct (files : List SrcFile) (before : Option Bytes) : Ask → Answer → Option Bytes → Prop
  | .typeId p, r, after =>
    (∀ ty pl, lastVar (allVars files) (components p) = some (ty, pl) → r = .type ty ∧ after = none) ∧
    (lastVar (allVars files) (components p) = none → r = .type 255 ∧ after = some (notFoundText p))
  | .isThere p, r, after =>
    after = before ∧ ∃ a, r = .yesNo a ∧ (a = true ↔ lastVar (allVars files) (components p) ≠ none)
  | .children p, r, after =>
    after = before ∧
    (IsDir files (components p) → ∃ names, r = .names (some names) ∧ names.Pairwise LexLt ∧
      ∀ n, n ∈ names ↔ Present files (components p ++ [n])) ∧
    (¬ IsDir files (components p) → r = .names none ∨ r = .names (some []))
  | .read p ty, r, after =>
    (lastVar (allVars files) (components p) = none → r = .data none ∧ after = some (notFoundText p)) ∧
    (∀ ty' pl, lastVar (allVars files) (components p) = some (ty', pl) →
      (ty' ≠ ty → r = .data none ∧ ∃ t' t, TypeText ty' t' ∧ TypeText ty t ∧
        after = some (bs "\"" ++ p ++ bs "\" is of type " ++ t' ++ bs " instead of " ++ t)) ∧
      (ty' = ty → pl = [] → r = .data none ∧ after = some (bs "The file \"" ++ p ++ bs "\" is empty")) ∧
      (ty' = ty → pl ≠ [] → ∀ w, TypeWidth ty w → r = .data (some (pl, pl.length / w)) ∧ after = none))

/-- Specification: the answers to a sequence of calls. -/
def CorrectRun (files : List SrcFile) : Option Bytes → List Ask → List (Answer × Option Bytes) → Prop
  | _, [], [] => True
  | before, a :: as, (r, after) :: rs => Correct files before a r after ∧ CorrectRun files after as rs
  | _, _, _ => False

/-- The path of a call. -/
def Ask.path : Ask → Bytes
  | .typeId p => p
  | .isThere p => p
  | .children p => p
  | .read p _ => p

/-- Specification: a path that may be asked for: absolute, a C string, at most 983 bytes. -/
def Ask.Ok (a : Ask) : Prop :=
  a.path.head? = some SEP ∧ 0 ∉ a.path ∧ (∀ c ∈ a.path, c < 256) ∧ a.path.length ≤ 983

/-! ## Lemmas -/

theorem typeName_text (t : Nat) : TypeText t (typeName t) ∧ (typeName t).length ≤ 7 := by
  unfold typeName
  split
  all_goals first
    | exact ⟨.other t (by simp only [imp_false] at *; omega), by decide⟩
    | exact ⟨by constructor, by decide⟩

theorem newError_short (b : BinFile) (text : Bytes) (h : text.length < 1024) :
    newError b text = .ok { b with error := some text } := by
  unfold newError
  rw [if_neg (by omega)]

theorem newError_long (b : BinFile) (text : Bytes) (h : 1024 ≤ text.length) : newError b text = .ub := by
  unfold newError
  rw [if_pos (by omega)]

theorem notFoundText_length (p : Bytes) : (notFoundText p).length = p.length + 21 := by
  unfold notFoundText
  rw [List.length_append, List.length_append]
  have e1 : (bs "\"").length = 1 := by decide
  have e2 : (bs "\" has not been found").length = 20 := by decide
  rw [e1, e2]; omega

/-- The lookup in an opened set of files. -/
theorem lookup_good {files : List SrcFile} (h : GoodSet files) {kids : List Entry}
    (k2 : Represents (allOps 0 files) kids) (path : Bytes) (habs : path.head? = some SEP) (h0 : 0 ∉ path)
    (hb : ∀ c ∈ path, c < 256) :
    (lastVar (allVars files) (components path) = none → getFile kids path = .ok none) ∧
    (∀ ty pl, lastVar (allVars files) (components path) = some (ty, pl) →
      ∃ i, getFile kids path = .ok (some i) ∧ i.varType = ty ∧ i.size = pl.length ∧
        (i.size ≠ 0 → readInfo (files.map (fun s => some s.content)) i = .ok pl)) := by
  obtain ⟨o, o1, o2, o3⟩ := open_lookup files h k2 path habs h0 hb
  have ht := treeOf_represents h k2
  have hg := getFile_of_represents k2 (asciiOps_allOps files 0 h.ok) (nonRoot_allOps files h.ok)
    path habs h0 hb (allOps_starts files 0 h.ok)
  constructor
  · intro hlv
    rw [hlv] at o2
    simp only [Option.map_eq_none_iff] at o2
    subst o2
    exact o1
  · intro ty pl hlv
    obtain ⟨i, i1, i2, i3, i4⟩ := ht.var _ _ _ hlv
    have hw : lastWrite (allOps 0 files) (components path) = some i := by
      cases hl : lastWrite (allOps 0 files) (components path) with
      | none =>
        rw [o1, hl] at hg
        simp only [Res.ok.injEq] at hg
        rw [hg, hlv] at o2; simp at o2
      | some j =>
        have := k2.file _ _ hl
        rw [i1] at this
        simp at this; rw [this]
    exact ⟨i, by rw [hg, hw], i2, i3, i4⟩

/-- What reading a variable found in the directory means on the level of the file. -/
theorem readInfo_ok_inv {files : List (Option Bytes)} {i : FileInfo} {d : Bytes} (h : readInfo files i = .ok d) :
    ∃ c, files[i.fileIndex]? = some (some c) ∧ i.filePos < u64 / 2 ∧ freadObj c i.filePos i.size = some d := by
  unfold readInfo at h
  split at h
  · cases h
  · cases h
  · rename_i c hc
    split at h
    · rename_i hp
      split at h
      · cases h
      · rename_i d' hd
        simp only [Res.ok.injEq] at h
        subst h
        exact ⟨c, hc, hp, hd⟩
    · cases h

theorem present_write {files : List SrcFile} (h : GoodSet files) (q : List Bytes) :
    (IsFolder (allOps 0 files) q ∨ lastWrite (allOps 0 files) q ≠ none) ↔ Present files q := by
  have hw := writesFrom_allOps (files.map SrcFile.content) files 0 [] h.ok (by simp)
  have hd := lastWrite_describe _ _ _ hw.1 q
  unfold Present
  rw [isDir_iff, ← hd]
  simp

/-- One call on an opened set of files. -/
theorem ask_good {files : List SrcFile} (h : GoodSet files) {kids : List Entry}
    (k2 : Represents (allOps 0 files) kids) (why : Bytes) (before : Option Bytes) (a : Ask) (ha : a.Ok) :
    ∃ r after, sessAsk why ⟨kids, files.map (fun s => some s.content), before⟩ a =
        .ok (r, ⟨kids, files.map (fun s => some s.content), after⟩) ∧ Correct files before a r after := by
  obtain ⟨habs, h0, hb, hlen⟩ := ha
  have hl := lookup_good h k2 a.path habs h0 hb
  cases a with
  | typeId p =>
    simp only [Ask.path] at *
    simp only [sessAsk, sessTypeId, clearError]
    cases hv : lastVar (allVars files) (components p) with
    | none =>
      rw [hl.1 hv]
      simp only [Res.bind_ok]
      rw [newError_short _ _ (by have := notFoundText_length p; unfold notFoundText at this; omega)]
      simp only [Res.bind_ok]
      refine ⟨_, _, rfl, ?_⟩
      unfold Correct
      exact ⟨fun ty pl hc => (by rw [hv] at hc; cases hc), fun _ => ⟨rfl, rfl⟩⟩
    | some x =>
      obtain ⟨ty, pl⟩ := x
      obtain ⟨i, i1, i2, i3, i4⟩ := hl.2 ty pl hv
      rw [i1]
      simp only [Res.bind_ok]
      refine ⟨_, _, rfl, fun ty' pl' hc => ?_, fun hc => by rw [hv] at hc; cases hc⟩
      rw [hv] at hc
      simp only [Option.some.injEq, Prod.mk.injEq] at hc
      rw [i2, hc.1]
      exact ⟨rfl, rfl⟩
  | isThere p =>
    simp only [Ask.path] at *
    simp only [sessAsk, sessExists]
    cases hv : lastVar (allVars files) (components p) with
    | none =>
      rw [hl.1 hv]
      simp only [Res.bind_ok]
      exact ⟨_, _, rfl, rfl, false, rfl, by simp [hv]⟩
    | some x =>
      obtain ⟨ty, pl⟩ := x
      obtain ⟨i, i1, i2, i3, i4⟩ := hl.2 ty pl hv
      rw [i1]
      simp only [Res.bind_ok]
      exact ⟨_, _, rfl, rfl, true, rfl, by simp [hv]⟩
  | children p =>
    simp only [Ask.path] at *
    simp only [sessAsk, sessChildren]
    obtain ⟨c1, c2⟩ := getChildren_of_represents k2 (asciiOps_allOps files 0 h.ok) p habs h0
      (components_bytes p hb)
    by_cases hd : IsDir files (components p)
    · have hf := (isDir_iff files _).1 hd
      obtain ⟨names, n1, n2, n3⟩ := c1 hf (by
        rw [lastWrite_none]
        intro w hw he
        exact noClash_allOps files h w hw (he ▸ hf))
      rw [n1]
      simp only [Res.bind_ok]
      refine ⟨_, _, rfl, rfl, fun _ => ⟨names, rfl, n2, fun n => ?_⟩, fun hn => absurd hd hn⟩
      rw [n3, present_write h]
    · rcases c2 (fun hf => hd ((isDir_iff files _).2 hf)) with e | e
      · rw [e]
        simp only [Res.bind_ok]
        exact ⟨_, _, rfl, rfl, fun hn => absurd hn hd, fun _ => .inl rfl⟩
      · rw [e]
        simp only [Res.bind_ok]
        exact ⟨_, _, rfl, rfl, fun hn => absurd hn hd, fun _ => .inr rfl⟩
  | read p ty =>
    simp only [Ask.path] at *
    simp only [sessAsk, sessRead, clearError]
    cases hv : lastVar (allVars files) (components p) with
    | none =>
      rw [hl.1 hv]
      simp only [Res.bind_ok]
      rw [newError_short _ _ (by have := notFoundText_length p; unfold notFoundText at this; omega)]
      simp only [Res.bind_ok]
      refine ⟨_, _, rfl, ?_⟩
      unfold Correct
      exact ⟨fun _ => ⟨rfl, rfl⟩, fun ty pl hc => (by rw [hv] at hc; cases hc)⟩
    | some x =>
      obtain ⟨ty', pl⟩ := x
      obtain ⟨i, i1, i2, i3, i4⟩ := hl.2 ty' pl hv
      rw [i1]
      simp only [Res.bind_ok]
      have key : ∀ (r : Answer) (after : Option Bytes),
          ((ty' ≠ ty → r = .data none ∧ ∃ t' t, TypeText ty' t' ∧ TypeText ty t ∧
              after = some (bs "\"" ++ p ++ bs "\" is of type " ++ t' ++ bs " instead of " ++ t)) ∧
            (ty' = ty → pl = [] → r = .data none ∧ after = some (bs "The file \"" ++ p ++ bs "\" is empty")) ∧
            (ty' = ty → pl ≠ [] → ∀ w, TypeWidth ty w → r = .data (some (pl, pl.length / w)) ∧ after = none)) →
          Correct files before (.read p ty) r after := by
        intro r after hc
        unfold Correct
        refine ⟨fun e => (by rw [hv] at e; cases e), fun ty'' pl'' e => ?_⟩
        rw [hv] at e
        simp only [Option.some.injEq, Prod.mk.injEq] at e
        obtain ⟨rfl, rfl⟩ := e
        exact hc
      by_cases hty : ty' = ty
      · rw [if_neg (by rw [i2]; simp [hty])]
        by_cases hp : pl = []
        · rw [if_pos (by rw [i3, hp]; rfl)]
          rw [newError_short _ _ (by
            have e1 : (bs "The file \"").length = 10 := by decide
            have e2 : (bs "\" is empty").length = 10 := by decide
            simp only [List.length_append, e1, e2]; omega)]
          simp only [Res.bind_ok]
          exact ⟨_, _, rfl, key _ _ ⟨fun hc => absurd hty hc, fun _ _ => ⟨rfl, rfl⟩, fun _ hc => absurd hp hc⟩⟩
        · have hz : i.size ≠ 0 := by rw [i3]; simpa using hp
          rw [if_neg hz]
          obtain ⟨c, c1, c2, c3⟩ := readInfo_ok_inv (i4 hz)
          rw [c1]
          simp only
          rw [if_neg (by omega), c3]
          simp only [Res.bind_ok]
          refine ⟨_, _, rfl, key _ _ ⟨fun hc => absurd hty hc, fun _ hc => absurd hc hp, fun _ _ w hw => ?_⟩⟩
          rw [i3, hw.size]
          exact ⟨rfl, rfl⟩
      · rw [if_pos (by rw [i2]; exact hty)]
        rw [newError_short _ _ (by
            have e1 : (bs "\"").length = 1 := by decide
            have e2 : (bs "\" is of type ").length = 13 := by decide
            have e3 : (bs " instead of ").length = 12 := by decide
            have e4 := (typeName_text i.varType).2
            have e5 := (typeName_text ty).2
            simp only [List.length_append, e1, e2, e3]; omega)]
        simp only [Res.bind_ok]
        refine ⟨_, _, rfl, key _ _ ⟨fun _ => ⟨rfl, _, _, (typeName_text ty').1, (typeName_text ty).1, ?_⟩,
          fun hc => absurd hc hty, fun hc => absurd hc hty⟩⟩
        rw [i2]

/-! ## C69 -/

/-- C69. After opening a set of well formed files without error, every sequence of calls that ask for types, existence,
children and values answers each call from the records of the files alone, whatever was asked
before; after each call the error string is the message of the last call of `binout_get_type_id` or
`binout_read_…` and absent if that call succeeded; asking for existence or children leaves it as it is. Nothing is
undefined for absolute paths of at most 983 bytes. -/
theorem c69_sessions (files : List SrcFile) (h : GoodSet files) (hne : files ≠ []) :
    ∃ n, ∀ fuel, n ≤ fuel → ∀ pattern, ∃ b,
      binoutOpen fuel pattern (files.map (fun s => (s.name, some s.content))) = .ok (some b) ∧ b.error = none ∧
      ∀ (why : Bytes) (hist : List Ask), (∀ a ∈ hist, a.Ok) →
        ∃ rs b', sessRun why b hist = .ok (rs, b') ∧ CorrectRun files none hist rs := by
  obtain ⟨n, hn⟩ := open_good files h hne
  refine ⟨n, fun fuel hf pattern => ?_⟩
  obtain ⟨kids, k1, k2⟩ := hn fuel hf pattern
  refine ⟨_, k1, rfl, fun why hist hok => ?_⟩
  have main : ∀ (hist : List Ask) (before : Option Bytes), (∀ a ∈ hist, a.Ok) →
      ∃ rs b', sessRun why ⟨kids, files.map (fun s => some s.content), before⟩ hist = .ok (rs, b') ∧
        CorrectRun files before hist rs := by
    intro hist
    induction hist with
    | nil => intro before _; exact ⟨_, _, rfl, trivial⟩
    | cons a as ih =>
      intro before hok
      obtain ⟨r, after, r1, r2⟩ := ask_good h k2 why before a (hok a (List.mem_cons_self ..))
      obtain ⟨rs, b', s1, s2⟩ := ih after (fun x hx => hok x (List.mem_cons_of_mem _ hx))
      refine ⟨(r, after) :: rs, b', ?_, r2, s2⟩
      simp only [sessRun]
      rw [r1]
      simp only [Res.bind_ok]
      rw [s1]
      rfl
  exact main hist none hok

/-- C69: the exact limit. Asking for the type of a path that is not a variable overruns the memory of
the message exactly if the path has more than 1002 bytes. -/
theorem c69_long_path_overruns (files : List SrcFile) (h : GoodSet files) (hne : files ≠ []) :
    ∃ n, ∀ fuel, n ≤ fuel → ∀ pattern, ∃ b,
      binoutOpen fuel pattern (files.map (fun s => (s.name, some s.content))) = .ok (some b) ∧
      ∀ (why path : Bytes), path.head? = some SEP → 0 ∉ path → (∀ c ∈ path, c < 256) →
        lastVar (allVars files) (components path) = none →
        (1002 < path.length → sessAsk why b (.typeId path) = .ub) ∧
        (path.length ≤ 1002 → ∃ b', sessAsk why b (.typeId path) = .ok (.type 255, b') ∧
          b'.error = some (notFoundText path)) := by
  obtain ⟨n, hn⟩ := open_good files h hne
  refine ⟨n, fun fuel hf pattern => ?_⟩
  obtain ⟨kids, k1, k2⟩ := hn fuel hf pattern
  refine ⟨_, k1, fun why path habs h0 hb hv => ?_⟩
  have hl := (lookup_good h k2 path habs h0 hb).1 hv
  have hlen := notFoundText_length path
  unfold notFoundText at hlen
  simp only [sessAsk, sessTypeId, clearError]
  rw [hl]
  simp only [Res.bind_ok]
  constructor
  · intro hlong
    rw [newError_long _ _ (by omega)]
    rfl
  · intro hshort
    rw [newError_short _ _ (by omega)]
    exact ⟨_, rfl, rfl⟩

/-- C69 for every directory and every state of the files (some may be missing or shorter than they were):
a read that returns has data exactly if there is no error string, and neither directory nor files change. -/
theorem c69_error_or_data (why : Bytes) (b b' : BinFile) (path : Bytes) (ty : Nat) (d : Option (Bytes × Nat))
    (h : sessRead why b path ty = .ok (d, b')) :
    (d = none ↔ b'.error ≠ none) ∧ b'.kids = b.kids ∧ b'.files = b.files ∧
    (∀ x, d = some x → binoutRead b path ty = .ok x) ∧ (d = none → binoutRead b path ty = .err) := by
  have err : ∀ (b0 : BinFile) (t : Bytes) (d : Option (Bytes × Nat)) (b' : BinFile),
      (do let b1 ← newError b0 t; Res.ok ((none : Option (Bytes × Nat)), b1)) = .ok (d, b') →
      d = none ∧ b' = { b0 with error := some t } := by
    intro b0 t d b' h
    unfold newError at h
    split at h
    · cases h
    · simp only [Res.bind_ok, Res.ok.injEq, Prod.mk.injEq] at h
      exact ⟨h.1.symm, h.2.symm⟩
  unfold sessRead clearError at h
  unfold binoutRead
  simp only at h
  cases hg : getFile b.kids path with
  | err => rw [hg] at h; cases h
  | ub => rw [hg] at h; cases h
  | abort => rw [hg] at h; cases h
  | ok o =>
    rw [hg] at h
    simp only [Res.bind_ok] at h ⊢
    cases o with
    | none =>
      simp only at h ⊢
      obtain ⟨rfl, rfl⟩ := err _ _ _ _ h
      simp
    | some i =>
      simp only at h ⊢
      by_cases h1 : i.varType ≠ ty
      · rw [if_pos h1] at h ⊢
        obtain ⟨rfl, rfl⟩ := err _ _ _ _ h
        simp
      rw [if_neg h1] at h ⊢
      by_cases h2 : i.size = 0
      · rw [if_pos h2] at h ⊢
        obtain ⟨rfl, rfl⟩ := err _ _ _ _ h
        simp
      rw [if_neg h2] at h ⊢
      unfold readInfo
      cases hf : b.files[i.fileIndex]? with
      | none => rw [hf] at h; cases h
      | some f =>
        rw [hf] at h
        cases f with
        | none =>
          simp only at h ⊢
          obtain ⟨rfl, rfl⟩ := err _ _ _ _ h
          simp [Res.bind_err]
        | some c =>
          simp only at h ⊢
          by_cases h3 : i.filePos ≥ u64 / 2
          · rw [if_pos h3] at h
            rw [if_neg (by omega)]
            obtain ⟨rfl, rfl⟩ := err _ _ _ _ h
            simp [Res.bind_err]
          rw [if_neg h3] at h
          rw [if_pos (by omega)]
          cases hr : freadObj c i.filePos i.size with
          | none =>
            rw [hr] at h
            simp only at h ⊢
            obtain ⟨rfl, rfl⟩ := err _ _ _ _ h
            simp [Res.bind_err]
          | some x =>
            rw [hr] at h
            simp only [Res.ok.injEq, Prod.mk.injEq] at h
            obtain ⟨rfl, rfl⟩ := h
            simp

/-- C69: `binout_get_type_id` on every directory: a type without an error string or the invalid type with one. -/
theorem c69_type_or_error (b b' : BinFile) (path : Bytes) (t : Nat) (h : sessTypeId b path = .ok (t, b')) :
    (b'.error = none → getTypeId b.kids path = .ok t) ∧
    (b'.error ≠ none → t = 255 ∧ getTypeId b.kids path = .err) ∧ b'.kids = b.kids ∧ b'.files = b.files := by
  unfold sessTypeId clearError at h
  unfold getTypeId
  simp only at h
  cases hg : getFile b.kids path with
  | err => rw [hg] at h; cases h
  | ub => rw [hg] at h; cases h
  | abort => rw [hg] at h; cases h
  | ok o =>
    rw [hg] at h
    simp only [Res.bind_ok] at h ⊢
    cases o with
    | none =>
      simp only at h ⊢
      unfold newError at h
      split at h
      · cases h
      · simp only [Res.bind_ok, Res.ok.injEq, Prod.mk.injEq] at h
        obtain ⟨rfl, rfl⟩ := h
        simp [typeInvalid]
    | some i =>
      simp only [Res.ok.injEq, Prod.mk.injEq] at h ⊢
      obtain ⟨rfl, rfl⟩ := h
      simp

/-- A session on the sample files: type of a variable, a missing variable, a folder, a read with a wrong type and a
read with the right one. -/
example : GoodSet [sampleFile] ∧ (∀ a ∈ [Ask.typeId (bs "/nodout/d000001/time"), .read (bs "/nodout/x") 9,
    .children (bs "/nodout"), .isThere (bs "/a")], a.Ok) := by
  refine ⟨sampleFile_good, ?_⟩
  intro a ha
  simp only [List.mem_cons, List.not_mem_nil, or_false] at ha
  rcases ha with rfl | rfl | rfl | rfl <;>
    exact ⟨by decide, by decide, by decide, by decide⟩

end Dyna
