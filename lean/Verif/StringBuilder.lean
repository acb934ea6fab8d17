import Verif.Common
/-!
# String builder

Model of `/repo/src/string_builder.c`. The heap buffer is a list of cells, `none` being an
uninitialised byte.
-/

namespace Dyna

/-- `string_builder_t`, `/repo/src/string_builder.h:32-36`. `buffer = none` is the null
pointer. The allocated size is the length of the buffer list. -/
structure SB where
  buffer : Option (List (Option Byte)) := none
  ptr : Nat := 0
  cap : Nat := 0
deriving DecidableEq, Repr

/-- `realloc` to `n` bytes: keeps the old contents, new bytes are uninitialised.
Code: `/repo/src/string_builder.c:44-48`. -/
def reallocBuf (b : Option (List (Option Byte))) (n : Nat) : List (Option Byte) :=
  let old := b.getD []
  old.take n ++ List.replicate (n - old.length) none

/-- `memcpy` of known bytes to position `i`; a write behind the allocation is `ub`.
Code: `/repo/src/string_builder.c:50`. -/
def writeAt (buf : List (Option Byte)) (i : Nat) (xs : Bytes) : Res (List (Option Byte)) :=
  if i + xs.length ≤ buf.length then
    .ok (buf.take i ++ xs.map some ++ buf.drop (i + xs.length))
  else .ub

/-- Models `/repo/src/string_builder.c:40-54` (`string_builder_append`); `s` is the
argument without its terminator, the copied bytes include the terminator. -/
def sbAppend (b : SB) (s : Bytes) : Res SB := do
  let cap := b.cap + s.length
  let cap := if b.ptr = 0 then cap + 1 else cap
  let buf ← writeAt (reallocBuf b.buffer cap) b.ptr (s ++ [0])
  pure { buffer := some buf, ptr := b.ptr + s.length, cap := cap }

/-- Models `/repo/src/string_builder.c:56-69` (`string_builder_append_char`). -/
def sbAppendChar (b : SB) (c : Byte) : Res SB := do
  let cap := b.cap + 1
  let cap := if b.ptr = 0 then cap + 1 else cap
  let buf ← writeAt (reallocBuf b.buffer cap) b.ptr [c]
  let buf ← writeAt buf (b.ptr + 1) [0]
  pure { buffer := some buf, ptr := b.ptr + 1, cap := cap }

/-- Models `/repo/src/string_builder.c:71-85` (`string_builder_append_len`); `s` are the
`l` bytes to copy. -/
def sbAppendLen (b : SB) (s : Bytes) : Res SB := do
  let cap := b.cap + (s.length + 1)
  let cap := if b.ptr = 0 then cap + 1 else cap
  let buf ← writeAt (reallocBuf b.buffer cap) b.ptr s
  let buf ← writeAt buf (b.ptr + s.length) [0]
  pure { buffer := some buf, ptr := b.ptr + s.length, cap := cap }

/-- One call on a builder. Code: `/repo/src/string_builder.c:40-85`. -/
inductive SBOp where
  | append (s : Bytes)
  | char (c : Byte)
  | appendLen (s : Bytes)
deriving DecidableEq, Repr

/-- The text an operation appends (specification). Part of the specification, models no code. -/
def SBOp.text : SBOp → Bytes
  | append s => s
  | char c => [c]
  | appendLen s => s

/-- Code: `/repo/src/string_builder.c:40-85`. -/
def sbStep (b : SB) : SBOp → Res SB
  | .append s => sbAppend b s
  | .char c => sbAppendChar b c
  | .appendLen s => sbAppendLen b s

/-- Run a sequence of calls on a builder. Part of the specification, models no code. -/
def sbRun (b : SB) : List SBOp → Res SB
  | [] => .ok b
  | op :: ops => do
    let b' ← sbStep b op
    sbRun b' ops

/-- Read a C string from a buffer: bytes up to the first NUL; reaching an uninitialised
byte or the end of the allocation is undefined.
Code: `/repo/src/string_builder.c:87-97` (readers of the result). -/
def readCStr : List (Option Byte) → Option Bytes
  | [] => none
  | none :: _ => none
  | some c :: cs => if c = 0 then some [] else (readCStr cs).map (c :: ·)

/-- Models `/repo/src/string_builder.c:87-97` (`string_builder_move`): the buffer handed out
and the reset builder. -/
def sbMove (b : SB) : Option (List (Option Byte)) × SB := (b.buffer, {})

/-! ## Lemmas -/

theorem readCStr_text (t : Bytes) (h : 0 ∉ t) (rest : List (Option Byte)) :
    readCStr (t.map some ++ some 0 :: rest) = some t := by
  induction t with
  | nil => simp [readCStr]
  | cons c cs ih =>
    have hc : c ≠ 0 := fun e => h (by simp [e])
    simp [readCStr, hc, ih (fun e => h (by simp [e]))]

/-- Invariant: either nothing was appended, or the buffer starts with the text followed by
a terminator, and `cap` is the allocated size. Part of the specification, models no code. -/
def SBInv (b : SB) (t : Bytes) : Prop :=
  (b = {} ∧ t = []) ∨
  (∃ rest, b.buffer = some (t.map some ++ some 0 :: rest) ∧ b.ptr = t.length ∧
    b.cap = t.length + 1 + rest.length)

theorem SBInv.cells {b : SB} {t : Bytes} (h : SBInv b t) (n k : Nat)
    (hk : b.cap + n + (if b.ptr = 0 then 1 else 0) = k) :
    ∃ rest, reallocBuf b.buffer k = t.map some ++ rest ∧ n + 1 ≤ rest.length ∧
      k = t.length + rest.length := by
  rcases h with ⟨h1, h2⟩ | ⟨rest, h1, h2, h3⟩
  · subst h1; subst h2
    refine ⟨List.replicate k none, by simp [reallocBuf], ?_, by simp⟩
    simp at hk ⊢; omega
  · have hlen : (t.map some ++ some (0 : Nat) :: rest).length ≤ k := by
      simp; omega
    refine ⟨some 0 :: rest ++ List.replicate (k - (t.length + (rest.length + 1))) none, ?_, ?_, ?_⟩
    · simp only [reallocBuf, h1, Option.getD_some]
      rw [List.take_of_length_le hlen]
      simp
    · simp; split at hk <;> omega
    · simp; split at hk <;> omega

theorem writeAt_mid (pre : List (Option Byte)) (rest : List (Option Byte)) (xs : Bytes)
    (h : xs.length ≤ rest.length) :
    writeAt (pre ++ rest) pre.length xs = .ok (pre ++ xs.map some ++ rest.drop xs.length) := by
  unfold writeAt
  rw [if_pos (by simp; omega)]
  congr 1
  rw [List.take_left, List.drop_append]
  simp

theorem sbStep_inv {b : SB} {t : Bytes} (h : SBInv b t) (op : SBOp) :
    ∃ b', sbStep b op = .ok b' ∧ SBInv b' (t ++ op.text) ∧ b'.buffer ≠ none := by
  have hp : b.ptr = t.length := by
    rcases h with ⟨h1, h2⟩ | ⟨rest, h1, h2, h3⟩
    · subst h1; subst h2; rfl
    · exact h2
  have hp' : b.ptr = (t.map (some : Byte → Option Byte)).length := by simp [hp]
  cases op with
  | append s =>
    obtain ⟨rest, h1, h2, h3⟩ := h.cells s.length _ rfl
    simp only [sbStep, sbAppend, SBOp.text]
    rw [show (if b.ptr = 0 then b.cap + s.length + 1 else b.cap + s.length) =
      b.cap + s.length + (if b.ptr = 0 then 1 else 0) from by split <;> rfl]
    rw [h1, hp', writeAt_mid _ _ _ (by simp; omega)]
    refine ⟨_, rfl, .inr ⟨rest.drop (s.length + 1), ?_, ?_, ?_⟩, by simp⟩
    · simp
    · simp
    · rw [← hp']; simp only [List.length_append, List.length_drop]; omega
  | char c =>
    obtain ⟨rest, h1, h2, h3⟩ := h.cells 1 _ rfl
    simp only [sbStep, sbAppendChar, SBOp.text]
    rw [show (if b.ptr = 0 then b.cap + 1 + 1 else b.cap + 1) =
      b.cap + 1 + (if b.ptr = 0 then 1 else 0) from by split <;> rfl]
    rw [h1, hp', writeAt_mid _ _ _ (by simp; omega)]
    simp only [Res.bind_ok]
    have e : (t.map (some : Byte → Option Byte)).length + 1 = (t.map some ++ [c].map some).length := by simp
    rw [e, writeAt_mid _ _ _ (by simp; omega)]
    refine ⟨_, rfl, .inr ⟨(rest.drop 1).drop 1, ?_, ?_, ?_⟩, by simp⟩
    · simp
    · simp
    · rw [← hp']; simp only [List.length_append, List.length_drop, List.length_singleton]; omega
  | appendLen s =>
    obtain ⟨rest, h1, h2, h3⟩ := h.cells (s.length + 1) _ rfl
    simp only [sbStep, sbAppendLen, SBOp.text]
    rw [show (if b.ptr = 0 then b.cap + (s.length + 1) + 1 else b.cap + (s.length + 1)) =
      b.cap + (s.length + 1) + (if b.ptr = 0 then 1 else 0) from by split <;> rfl]
    rw [h1, hp', writeAt_mid _ _ _ (by omega)]
    simp only [Res.bind_ok]
    have e : (t.map (some : Byte → Option Byte)).length + s.length = (t.map some ++ s.map some).length := by simp
    rw [e, writeAt_mid _ _ _ (by simp; omega)]
    refine ⟨_, rfl, .inr ⟨(rest.drop s.length).drop 1, ?_, ?_, ?_⟩, by simp⟩
    · simp
    · simp
    · rw [← hp']; simp only [List.length_append, List.length_drop]; omega

theorem sbRun_inv {b : SB} {t : Bytes} (h : SBInv b t) (ops : List SBOp) :
    ∃ b', sbRun b ops = .ok b' ∧ SBInv b' (t ++ (ops.map SBOp.text).flatten) ∧
      (ops ≠ [] → b'.buffer ≠ none) := by
  induction ops generalizing b t with
  | nil => exact ⟨b, rfl, by simpa using h, by simp⟩
  | cons op ops ih =>
    obtain ⟨b1, h1, h2, h3⟩ := sbStep_inv h op
    obtain ⟨b2, h4, h5, h6⟩ := ih h2
    refine ⟨b2, by simp [sbRun, h1, h4], by simpa using h5, fun _ => ?_⟩
    by_cases ho : ops = []
    · subst ho; simp [sbRun] at h4; subst h4; exact h3
    · exact h6 ho

end Dyna
