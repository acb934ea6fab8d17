import Verif.PathOpen
import Verif.Props.PathReal
/-!
# C102: the path a handle stores
-/

namespace Dyna.PathOpen

open Dyna PathReal

/-- Specification: a letter. -/
def Letter (c : Nat) : Prop := (65 ≤ c ∧ c ≤ 90) ∨ (97 ≤ c ∧ c ≤ 122)

/-- Specification: separators of the platform. -/
def IsSep (win : Bool) (c : Byte) : Prop := c = 47 ∨ (win = true ∧ c = 92)

/-- Specification: the path names a file no matter what the working directory is: it begins with a separator, or on Windows with a drive,
a colon and a separator. -/
def Absolute (win : Bool) (p : Bytes) : Prop :=
  if win = true then ∃ d s rest, p = d :: 58 :: s :: rest ∧ Letter d ∧ IsSep true s else ∃ rest, p = 47 :: rest

/-- Specification: the path is relative to the working directory. On Windows a path that begins with a separator or with a drive is neither
absolute nor relative to it (or names a share of a server). -/
def Relative (win : Bool) (p : Bytes) : Prop :=
  if win = true then ∀ c ∈ p.head?, ¬ IsSep true c ∧ (Letter c → p[1]? ≠ some 58) else ¬ Absolute win p

/-- Specification: `comps` are the steps from the root (or the drive) to the file that `p` names while `wd` is the working directory. -/
inductive Names (win : Bool) (wd : Bytes) (p : Bytes) : List Bytes → Prop
  | absolute : Absolute win p → Names win wd p (realComponents win p)
  | relative : Relative win p → Names win wd p (realComponents win wd ++ realComponents win p)

theorem readCStr_text {t : Bytes} (h : 0 ∉ t) (rest : List (Option Byte)) : readCStr (t.map some ++ some 0 :: rest) = some t := by
  induction t with
  | nil => simp [readCStr]
  | cons c cs ih =>
    simp only [List.mem_cons, not_or] at h
    simp only [List.map_cons, List.cons_append, readCStr, if_neg (Ne.symm h.1), ih h.2, Option.map_some]

theorem wd_known {win : Bool} {w : Bytes} (h : 0 ∉ w) (hl : win = true ∨ w.length < 1024) :
    readCStr (workingDirectory win (some w)) = some w := by
  unfold workingDirectory
  cases win
  · have hl : w.length < 1024 := by simpa using hl
    simp only [Bool.false_eq_true, if_false]
    rw [if_pos (by omega)]
    have := readCStr_text h (List.replicate (1024 - (w.length + 1)) none)
    simpa using this
  · simp only [if_true]
    have := readCStr_text h []
    simpa using this

/-- Auxiliary: the code recognises absolute paths, on Windows only with upper case drives. -/
theorem isAbs_iff (win : Bool) (p : Bytes) :
    isAbs win p = true ↔ Absolute win p ∧ (win = true → ∀ d ∈ p.head?, d ≤ 90) := by
  unfold isAbs Absolute
  cases win
  · simp only [Bool.false_eq_true, if_false, false_implies, and_true]
    cases p with
    | nil => simp
    | cons c cs => simp [SEP]
  · simp only [if_true, true_implies]
    constructor
    · intro h
      match p, h with
      | a :: b :: c :: rest, h =>
        simp only [Bool.and_eq_true, decide_eq_true_eq, beq_iff_eq] at h
        obtain ⟨⟨h1, rfl⟩, h3⟩ := h
        refine ⟨⟨a, c, rest, rfl, Or.inl h1, ?_⟩, ?_⟩
        · simp only [isRealSep, if_true, Bool.or_eq_true, beq_iff_eq] at h3
          rcases h3 with h3 | h3
          · exact Or.inr ⟨rfl, h3⟩
          · exact Or.inl h3
        · intro d hd
          simp only [List.head?_cons, Option.mem_def, Option.some.injEq] at hd
          omega
    · rintro ⟨⟨d, s, rest, rfl, hd, hs⟩, hu⟩
      have hle : @LE.le Nat _ d 90 := hu d (by simp)
      have hd' : 65 ≤ d ∧ d ≤ 90 := by
        rcases hd with h | h
        · exact h
        · omega
      have hs' : isRealSep true s = true := by
        rcases hs with h | ⟨-, h⟩ <;> subst h <;> decide
      simp [hd', hs']

/-- Auxiliary: a path that is joined to an absolute one is absolute. -/
theorem join_absolute {win : Bool} {w p r : Bytes} (hw : Absolute win w) (h : pathJoinReal win w p = .ok r) : Absolute win r := by
  unfold pathJoinReal at h
  by_cases h0 : w = []
  · rw [if_pos h0] at h
    simp at h
  rw [if_neg h0] at h
  simp only [Res.ok.injEq] at h
  generalize hk : PathReal.backSep win w (w.length - 1) = k at h
  unfold Absolute at *
  cases win
  · simp only [Bool.false_eq_true, if_false] at *
    obtain ⟨rest, rfl⟩ := hw
    rw [← h]
    exact ⟨_, by rw [List.take_succ_cons, List.cons_append]⟩
  · simp only [if_true] at *
    obtain ⟨d, s, rest, rfl, hd, hs⟩ := hw
    have hkge : 1 ≤ k := by
      have stop : ∀ i, 1 ≤ i → 1 ≤ PathReal.backSep true (d :: 58 :: s :: rest) i := by
        intro i
        induction i with
        | zero => intro h; omega
        | succ i ih =>
          intro _
          unfold PathReal.backSep
          split
          · rename_i hany
            cases i with
            | zero =>
              simp [isRealSep, backslash, SEP] at hany
            | succ i => exact ih (by omega)
          · omega
      rw [← hk]
      exact stop _ (by simp)
    obtain ⟨k', rfl⟩ : ∃ k', k = k' + 1 := ⟨k - 1, by omega⟩
    rw [← h]
    simp only [List.take_succ_cons, List.cons_append]
    cases k' with
    | zero => exact ⟨d, 92, PathReal.skipLead true p, rfl, hd, Or.inr ⟨rfl, rfl⟩⟩
    | succ k'' => exact ⟨d, s, _, by rw [List.take_succ_cons, List.cons_append], hd, hs⟩

theorem absolute_ne_nil {win : Bool} {w : Bytes} (h : Absolute win w) : w ≠ [] := by
  intro e
  subst e
  unfold Absolute at h
  cases win
  · simp at h
  · simp at h

/-- **C102.** A file that has been opened stays the same file: for every path (on Windows: one that begins with an upper case drive, or one
that is relative) the stored path is absolute and names, whatever the working directory is later on, the file that the path named when the
file was opened.
Missing: on Windows other absolute paths, see `c102_drives` (a lower case drive); a working directory with more than 1023 characters or
none at all, see `c102_long_directory`, `c102_no_directory`. -/
theorem c102_stable_partial {win : Bool} {wd p : Bytes} {comps : List Bytes} (hwd : Absolute win wd) (h0 : 0 ∉ wd)
    (hlen : win = true ∨ wd.length < 1024) (hp : Names win wd p comps)
    (hdrive : win = true → Absolute win p → ∀ d ∈ p.head?, d ≤ 90) :
    ∃ f, openPath win (some wd) p = .ok f ∧ Absolute win f ∧ ∀ wd' comps', Names win wd' f comps' ↔ comps' = comps := by
  have fin : ∀ f, Absolute win f → realComponents win f = comps → ∀ wd' comps', Names win wd' f comps' ↔ comps' = comps := by
    intro f hf hc wd' comps'
    constructor
    · intro h
      cases h with
      | absolute _ => exact hc
      | relative hr =>
        exfalso
        unfold Relative at hr
        cases win
        · exact hr hf
        · simp only [if_true] at hr
          unfold Absolute at hf
          simp only [if_true] at hf
          obtain ⟨d, s, rest, rfl, hd, -⟩ := hf
          exact (hr d (by simp)).2 hd (by simp)
    · rintro rfl
      rw [← hc]
      exact .absolute hf
  unfold openPath
  cases hp with
  | absolute ha =>
    have : isAbs win p = true := (isAbs_iff win p).mpr ⟨ha, fun hw => hdrive hw ha⟩
    rw [if_pos this]
    exact ⟨p, rfl, ha, fin p ha rfl⟩
  | relative hr =>
    have hna : ¬ isAbs win p = true := by
      intro h
      have ha := ((isAbs_iff win p).mp h).1
      unfold Relative at hr
      cases win
      · exact hr ha
      · simp only [if_true] at hr
        unfold Absolute at ha
        simp only [if_true] at ha
        obtain ⟨d, s, rest, rfl, hd, -⟩ := ha
        exact (hr d (by simp)).2 hd (by simp)
    rw [if_neg hna, wd_known h0 hlen]
    obtain ⟨r, h1, h2⟩ := c94_join win wd p (absolute_ne_nil hwd)
    exact ⟨r, h1, join_absolute hwd h1, fin r (join_absolute hwd h1) h2⟩

/-- On Windows a path with a lower case drive is taken for a relative one: the working directory is put in front of it, and the result
names a different file. -/
theorem c102_drives {wd p : Bytes} (hwd : Absolute true wd) (h0 : 0 ∉ wd) (_hp : Absolute true p)
    (hdrive : ∃ d ∈ p.head?, 97 ≤ d) :
    ∃ f, openPath true (some wd) p = .ok f ∧ ∀ wd', ¬ Names true wd' f (realComponents true p) := by
  have hna : ¬ isAbs true p = true := by
    intro h
    obtain ⟨d, hd, hge⟩ := hdrive
    have hle : @LE.le Nat _ d 90 := ((isAbs_iff true p).mp h).2 rfl d hd
    have hge' : @LE.le Nat _ 97 d := hge
    omega
  unfold openPath
  rw [if_neg hna, wd_known h0 (Or.inl rfl)]
  obtain ⟨r, h1, h2⟩ := c94_join true wd p (absolute_ne_nil hwd)
  have hwne : realComponents true wd ≠ [] := by
    unfold Absolute at hwd
    simp only [if_true] at hwd
    obtain ⟨d, s, rest, rfl, hd, -⟩ := hwd
    have hds : isRealSep true d = false := by
      unfold Letter at hd
      simp only [isRealSep, if_true, backslash, SEP, Bool.or_eq_false_iff, beq_eq_false_iff_ne]
      refine ⟨fun h => ?_, fun h => ?_⟩
      · have h' : @Eq Nat d 92 := h
        omega
      · have h' : @Eq Nat d 47 := h
        omega
    unfold realComponents
    have : ∃ q ps, pieces true (d :: 58 :: s :: rest) = (d :: q) :: ps := by
      unfold pieces
      rw [hds]
      simp only [Bool.false_eq_true, if_false]
      cases pieces true (58 :: s :: rest) with
      | nil => exact ⟨_, _, rfl⟩
      | cons x xs => exact ⟨_, _, rfl⟩
    obtain ⟨q, ps, e⟩ := this
    rw [e]
    simp
  refine ⟨r, h1, ?_⟩
  intro wd' hn
  have len : ∀ x : List Bytes, realComponents true p = x ++ realComponents true r → False := by
    intro x e
    rw [h2] at e
    have := congrArg List.length e
    simp only [List.length_append] at this
    have := List.length_pos_iff.mpr hwne
    omega
  have hn' : ∀ c, Names true wd' r c → c = realComponents true p → False := by
    intro c hc e
    cases hc with
    | absolute _ => exact len [] (by simpa using e.symm)
    | relative _ => exact len _ e.symm
  exact hn' _ hn rfl

/-- On Linux, if the working directory has 1024 characters or more (or cannot be determined), the stored path is relative: it begins with
`./`, and what it names depends on the working directory at the time of each access. -/
theorem c102_long_directory {wd : Option Bytes} {p : Bytes} (hwd : ∀ w ∈ wd, 1024 ≤ w.length) (hp : Relative false p) :
    ∃ f, openPath false wd p = .ok f ∧ ∀ wd', Names false wd' f (realComponents false wd' ++ [46] :: realComponents false p) := by
  have hna : ¬ isAbs false p = true := by
    intro h
    have ha := ((isAbs_iff false p).mp h).1
    unfold Relative at hp
    exact hp ha
  have hwd' : readCStr (workingDirectory false wd) = some [46] := by
    unfold workingDirectory
    simp only [Bool.false_eq_true, if_false]
    cases wd with
    | none => simp [readCStr]
    | some w =>
      have := hwd w (by simp)
      simp only
      rw [if_neg (by omega)]
      simp [readCStr]
  unfold openPath
  rw [if_neg hna, hwd']
  obtain ⟨r, h1, h2⟩ := c94_join false [46] p (by simp)
  refine ⟨r, h1, ?_⟩
  intro wd'
  have hc : realComponents false [46] = [[46]] := by decide
  have hr : Relative false r := by
    unfold Relative Absolute
    simp only [Bool.false_eq_true, if_false]
    rintro ⟨rest, e⟩
    unfold pathJoinReal at h1
    rw [if_neg (by simp)] at h1
    simp only [Res.ok.injEq] at h1
    rw [e] at h1
    have := congrArg List.head? h1
    simp [PathReal.backSep] at this
  have := Names.relative (wd := wd') hr
  rw [h2, hc] at this
  simpa using this

/-- On Windows without a working directory the replacement has no NUL at its end: taking its length reads behind the buffer. -/
theorem c102_no_directory {p : Bytes} (hp : Relative true p) : openPath true none p = .ub := by
  have hna : ¬ isAbs true p = true := by
    intro h
    have ha := ((isAbs_iff true p).mp h).1
    unfold Relative at hp
    simp only [if_true] at hp
    unfold Absolute at ha
    simp only [if_true] at ha
    obtain ⟨d, s, rest, rfl, hd, -⟩ := ha
    exact (hp d (by simp)).2 hd (by simp)
  unfold openPath
  rw [if_neg hna]
  rfl

/-- The hypotheses are met: a relative path on Linux and on Windows, and the stored paths. -/
theorem c102_sample : openPath false (some (bs "/home/run")) (bs "out/d3plot") = .ok (bs "/home/run/out/d3plot") ∧
    openPath true (some (bs "C:\\run")) (bs "out/d3plot") = .ok (bs "C:\\run\\out/d3plot") ∧
    Names true (bs "C:\\run") (bs "out/d3plot") [bs "C:", bs "run", bs "out", bs "d3plot"] ∧
    Absolute true (bs "C:\\run") ∧ Absolute false (bs "/home/run") := by
  refine ⟨by decide +kernel, by decide +kernel, ?_, ⟨67, 92, bs "run", by decide +kernel, Or.inl (by decide), Or.inr ⟨rfl, rfl⟩⟩,
    ⟨bs "home/run", by decide +kernel⟩⟩
  have h : Relative true (bs "out/d3plot") := by
    unfold Relative
    simp only [if_true]
    intro c hc
    have : c = 111 := by
      have e : (bs "out/d3plot").head? = some 111 := by decide +kernel
      rw [e] at hc
      simpa using hc.symm
    subst this
    exact ⟨by simp [IsSep], fun _ => by decide +kernel⟩
  have := Names.relative (wd := bs "C:\\run") h
  have e : realComponents true (bs "C:\\run") ++ realComponents true (bs "out/d3plot") =
      [bs "C:", bs "run", bs "out", bs "d3plot"] := by decide +kernel
  rw [e] at this
  exact this

/-- A lower case drive. -/
example : openPath true (some (bs "C:\\run")) (bs "c:/data/d3plot") = .ok (bs "C:\\run\\c:/data/d3plot") := by decide +kernel

end Dyna.PathOpen
