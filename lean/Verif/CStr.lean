import Verif.BinarySearch
/-!
# C string comparison
-/

namespace Dyna

/-- `strcmp` of the C library (used in `/repo/src/binary_search.c:86,109`): comparison of
unsigned bytes, a missing byte counting as smaller than every byte. Strings carry no
terminator and contain no NUL. Only the sign is specified by C. -/
def strcmp : Bytes → Bytes → Int
  | [], [] => 0
  | [], _ :: _ => -1
  | _ :: _, [] => 1
  | a :: as, b :: bs => if a = b then strcmp as bs else (a : Int) - b

/-- Specification: byte strings are ordered lexicographically.
Part of the specification, models no code. -/
def LexLt : Bytes → Bytes → Prop
  | _, [] => False
  | [], _ :: _ => True
  | a :: as, b :: bs => a < b ∨ (a = b ∧ LexLt as bs)

instance LexLt.dec : (a b : Bytes) → Decidable (LexLt a b)
  | [], [] => isFalse (fun h => h)
  | _ :: _, [] => isFalse (fun h => h)
  | [], _ :: _ => isTrue trivial
  | a :: as, b :: bs =>
    have := LexLt.dec as bs
    inferInstanceAs (Decidable (a < b ∨ (a = b ∧ LexLt as bs)))

theorem strcmp_eq_zero (a b : Bytes) : strcmp a b = 0 ↔ a = b := by
  induction a generalizing b with
  | nil => cases b <;> simp [strcmp]
  | cons x xs ih =>
    cases b with
    | nil => simp [strcmp]
    | cons y ys =>
      by_cases h : x = y
      · simp [strcmp, h, ih]
      · simp only [strcmp, h, if_false, List.cons.injEq, false_and, iff_false]
        omega

theorem strcmp_neg (a b : Bytes) : strcmp a b < 0 ↔ LexLt a b := by
  induction a generalizing b with
  | nil => cases b <;> simp [strcmp, LexLt]
  | cons x xs ih =>
    cases b with
    | nil => simp [strcmp, LexLt]
    | cons y ys =>
      by_cases h : x = y
      · simp [strcmp, h, ih, LexLt]
      · simp only [strcmp, h, if_false, LexLt, false_and, or_false]
        omega

theorem strcmp_pos (a b : Bytes) : 0 < strcmp a b ↔ LexLt b a := by
  induction a generalizing b with
  | nil => cases b <;> simp [strcmp, LexLt]
  | cons x xs ih =>
    cases b with
    | nil => simp [strcmp, LexLt]
    | cons y ys =>
      by_cases h : x = y
      · simp [strcmp, h, ih, LexLt]
      · have h' : ¬ y = x := fun e => h e.symm
        simp only [strcmp, h, h', if_false, LexLt, false_and, or_false]
        omega

theorem LexLt.irrefl (a : Bytes) : ¬ LexLt a a := by
  induction a with
  | nil => simp [LexLt]
  | cons x xs ih => simp [LexLt, ih]

theorem LexLt.trans {a b c : Bytes} (h1 : LexLt a b) (h2 : LexLt b c) : LexLt a c := by
  induction a generalizing b c with
  | nil =>
    cases c with
    | nil => cases b <;> simp_all [LexLt]
    | cons _ _ => simp [LexLt]
  | cons x xs ih =>
    cases b with
    | nil => simp [LexLt] at h1
    | cons y ys =>
      cases c with
      | nil => simp [LexLt] at h2
      | cons z zs =>
        simp only [LexLt] at *
        rcases h1 with h1 | ⟨h1, h1'⟩ <;> rcases h2 with h2 | ⟨h2, h2'⟩
        · left; omega
        · left; omega
        · left; omega
        · right; exact ⟨by omega, ih h1' h2'⟩

theorem LexLt.asymm {a b : Bytes} (h1 : LexLt a b) (h2 : LexLt b a) : False :=
  LexLt.irrefl a (h1.trans h2)

theorem LexLt.total (a b : Bytes) : LexLt a b ∨ a = b ∨ LexLt b a := by
  rcases Int.lt_trichotomy (strcmp a b) 0 with h | h | h
  · exact .inl ((strcmp_neg a b).1 h)
  · exact .inr (.inl ((strcmp_eq_zero a b).1 h))
  · exact .inr (.inr ((strcmp_pos a b).1 h))

/-- Value of a `char` object holding the byte `c` (plain `char` is signed on the modelled
platform). Auxiliary of the model, no code of its own. -/
def schar (c : Byte) : Int := if c < 128 then (c : Int) else (c : Int) - 256

/-- Models `/repo/src/path_view.c:89-118` (`path_view_strcmp`); `v` is the viewed
component, `str` the NUL terminated name. The final expression is kept as in the code. -/
def pvStrcmp : Bytes → Bytes → Int
  | v :: vs, s :: ss =>
    let d := schar v - schar s
    if d ≠ 0 then d else pvStrcmp vs ss
  | vs, ss => (if ss = [] then 1 else 0) * 2 - 1 - (if vs = [] then 1 else 0)

/-- A byte string of 7-bit characters. Part of the specification, models no code. -/
def Ascii (a : Bytes) : Prop := ∀ c ∈ a, c < 128

instance (a : Bytes) : Decidable (Ascii a) := inferInstanceAs (Decidable (∀ c ∈ a, c < 128))

theorem schar_ascii {c : Nat} (h : c < 128) : schar c = c := by simp [schar, h]

theorem pvStrcmp_eq_zero (a b : Bytes) (ha : ∀ c ∈ a, c < 256) (hb : ∀ c ∈ b, c < 256) :
    pvStrcmp a b = 0 ↔ a = b := by
  induction a generalizing b with
  | nil => cases b <;> simp [pvStrcmp]
  | cons x xs ih =>
    cases b with
    | nil => simp [pvStrcmp]
    | cons y ys =>
      have hx := ha x (by simp)
      have hy := hb y (by simp)
      have ih' := ih ys (fun c hc => ha c (by simp [hc])) (fun c hc => hb c (by simp [hc]))
      by_cases h : x = y
      · subst h; simp [pvStrcmp, ih']
      · have hne : schar x - schar y ≠ 0 := by unfold schar; split <;> split <;> omega
        simp only [pvStrcmp]
        rw [if_pos hne]
        simp [h, hne]

theorem pvStrcmp_neg (a b : Bytes) (ha : Ascii a) (hb : Ascii b) :
    pvStrcmp a b < 0 ↔ LexLt a b := by
  induction a generalizing b with
  | nil => cases b <;> simp [pvStrcmp, LexLt]
  | cons x xs ih =>
    cases b with
    | nil => simp [pvStrcmp, LexLt]
    | cons y ys =>
      have hx := ha x (by simp)
      have hy := hb y (by simp)
      have ih' := ih ys (fun c hc => ha c (by simp [hc])) (fun c hc => hb c (by simp [hc]))
      by_cases h : x = y
      · subst h; simp [pvStrcmp, ih', LexLt]
      · have hne : schar x - schar y ≠ 0 := by
          rw [schar_ascii hx, schar_ascii hy]; omega
        simp only [pvStrcmp, LexLt]
        rw [if_pos hne, schar_ascii hx, schar_ascii hy]
        simp only [h, false_and, or_false]; omega

theorem pvStrcmp_pos (a b : Bytes) (ha : Ascii a) (hb : Ascii b) :
    0 < pvStrcmp a b ↔ LexLt b a := by
  have h0 := pvStrcmp_eq_zero a b (fun c hc => by have := ha c hc; omega)
    (fun c hc => by have := hb c hc; omega)
  have h1 := pvStrcmp_neg a b ha hb
  constructor
  · intro h
    rcases LexLt.total a b with h2 | h2 | h2
    · have := h1.2 h2; omega
    · have := h0.2 h2; omega
    · exact h2
  · intro h
    rcases Int.lt_trichotomy (pvStrcmp a b) 0 with h2 | h2 | h2
    · exact absurd h (fun h => (h1.1 h2).asymm h)
    · rw [h0.1 h2] at h; exact absurd h (LexLt.irrefl b)
    · exact h2

end Dyna
