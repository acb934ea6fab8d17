import Verif.D3Elements
import Verif.D3PlotInv
/-!
# Reading from an open d3plot: what the calls return
-/

namespace Dyna.D3

/-- Specification: the values of `n` words from word `k` on.
Part of the specification, models no code. -/
def wordsFrom (b : Buf) (k n : Nat) : List Nat := (List.range n).map fun i => wordAt b (k + i)

theorem wordsFrom_succ (b : Buf) (k n : Nat) :
    wordsFrom b k (n + 1) = wordAt b k :: wordsFrom b (k + 1) n := by
  unfold wordsFrom
  rw [List.range_succ_eq_map]
  simp only [List.map_cons, List.map_map, Nat.add_zero]
  congr 1
  apply List.map_congr_left
  intro i _
  simp only [Function.comp_apply]
  congr 1
  omega

theorem wordsFrom_length (b : Buf) (k n : Nat) : (wordsFrom b k n).length = n := by
  simp [wordsFrom]

theorem wordsFrom_get {b : Buf} {k n i : Nat} (h : i < n) :
    (wordsFrom b k n)[i]? = some (wordAt b (k + i)) := by
  simp [wordsFrom, h]

theorem toWords_eq (b : Buf) : ∀ (n k : Nat),
    toWords b.ws n ((b.bytes.drop (k * b.ws)).take (n * b.ws)) = wordsFrom b k n := by
  intro n
  induction n with
  | zero => intro k; rfl
  | succ n ih =>
    intro k
    rw [wordsFrom_succ]
    unfold toWords
    have hs : (n + 1) * b.ws = b.ws + n * b.ws := by rw [Nat.succ_mul]; omega
    congr 1
    · rw [List.take_take, hs, Nat.min_eq_left (by omega)]
      rfl
    · rw [List.drop_take, List.drop_drop, hs, Nat.add_sub_cancel_left]
      rw [← ih (k + 1)]
      congr 3
      rw [Nat.succ_mul]

/-- Reading words that are there. -/
theorem readAt_at {p : Plot} (g : Good p.buf) {n k : Nat} (hk : k < words p.buf)
    (hn : k + n ≤ words p.buf) : readAt p n k = .ok (p, some (wordsFrom p.buf k n)) := by
  have hw := words_small g
  have h1 := (lt_words g).1 hk
  have h2 := (le_words g).1 hn
  have hsize := g.size
  unfold Buf.bytes at h1 h2 hsize
  obtain ⟨q, e, _⟩ := c26_read_is_slice g.err g.ws (by unfold u64; omega) h1 h2
  unfold readAt
  rw [Nat.mod_eq_of_lt (a := n) (by unfold u64; omega), Nat.mod_eq_of_lt (a := k) (by unfold u64; omega), e]
  simp only [close, g.err, Bool.false_eq_true, if_false]
  rw [show List.take (n * p.buf.ws) (List.drop (k * p.buf.ws) p.buf.files.flatten) =
    (p.buf.bytes.drop (k * p.buf.ws)).take (n * p.buf.ws) from rfl, toWords_eq]

/-- A read either is undefined behaviour or succeeds and leaves the file as it is: the only error
that a read could report comes with a pointer that must not be closed. -/
theorem readAt_cases {p : Plot} (herr : p.buf.err = false) {n k : Nat} (hn : n % u64 * p.buf.ws < u64) :
    readAt p n k = .ub ∨ ∃ l, readAt p n k = .ok (p, some l) := by
  unfold readAt readWordsAt
  cases hs : seek p.buf (k % u64) with
  | mk b' q =>
    have hb : q = none ∧ b'.err = true ∨ (b' = p.buf ∧ ∃ x, q = some x ∧ Valid p.buf x) := by
      unfold seek at hs
      cases hl : locate p.buf.files 0 (k % u64 * p.buf.ws % u64) with
      | none => rw [hl] at hs; cases hs; exact .inl ⟨rfl, rfl⟩
      | some x =>
        obtain ⟨i, o⟩ := x
        rw [hl] at hs
        cases hs
        refine .inr ⟨rfl, _, rfl, ?_⟩
        by_cases hin : k % u64 * p.buf.ws % u64 < p.buf.bytes.length
        · obtain ⟨i', o', cur, h1, h2, h3, _⟩ := (locate_spec p.buf.files [] (k % u64 * p.buf.ws % u64)).1 hin
          simp only [List.length_nil, List.nil_append] at h1 h2
          rw [hl] at h1
          cases h1
          exact ⟨cur, h2, Nat.le_of_lt h3⟩
        · have := (locate_spec p.buf.files [] (k % u64 * p.buf.ws % u64)).2 (Nat.le_of_not_lt hin)
          simp only [List.length_nil] at this
          rw [hl] at this
          cases this
    simp only
    rcases hb with ⟨rfl, he⟩ | ⟨rfl, x, rfl, hv⟩
    · rw [if_pos he]
      exact .inl rfl
    · simp only [herr, Bool.false_eq_true, if_false]
      by_cases hr : absPos p.buf x + n % u64 * p.buf.ws ≤ p.buf.bytes.length
      · obtain ⟨q', f1, _⟩ := read_inside hv hn hr
        rw [f1]
        simp only [close, herr, Bool.false_eq_true, if_false]
        exact .inr ⟨_, rfl⟩
      · obtain ⟨bytes, f1⟩ := read_outside hv hn (Nat.lt_of_not_le hr)
        rw [f1]
        exact .inl rfl

end Dyna.D3
