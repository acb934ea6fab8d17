import Verif.D3Window
/-!
# Property C85: families with more files than can be open at the same time (builds without thread safety)

The claim would be that every file of the family can be reached, however many there are. It holds for
going through the files one after the other and for jumps that are far enough; it does not hold for all others.
-/

namespace Dyna.Window

/-! ## Specification -/

/-- Specification: the open files are those from `first` to `last`, the process has at least these open. -/
structure Good (w : Win) : Prop where
  order : w.first ≤ w.last
  bound : w.last < w.num
  small : w.num < u64
  isOpen : ∀ i, w.isOpen i = decide (w.first ≤ i ∧ i ≤ w.last)
  count : w.last - w.first + 1 ≤ w.count

/-- Specification: the number of open files of the family. -/
def Win.width (w : Win) : Nat := w.last - w.first + 1

/-! ## Loops -/

theorem closeUp_eq (n : Nat) : ∀ (w : Win) (i : Nat), i + n ≤ w.num → (∀ j, i ≤ j → j < i + n → w.isOpen j = true) →
    w.closeUp i n = .ok { w with isOpen := fun j => if i ≤ j ∧ j < i + n then false else w.isOpen j,
                                 count := w.count - n } := by
  induction n with
  | zero =>
    intro w i _ _
    simp only [Win.closeUp, Nat.add_zero, Nat.sub_zero, Res.ok.injEq]
    have h5 : (fun j => if i ≤ j ∧ j < i then false else w.isOpen j) = w.isOpen := by
      funext j
      rw [if_neg (by omega)]
    rw [h5]
  | succ n ih =>
    intro w i hn ho
    simp only [Win.closeUp, Win.close]
    rw [if_neg (by omega), if_pos (ho i (by omega) (by omega))]
    simp only [Res.bind_ok]
    rw [ih _ _ (by simp only; omega) (by
      intro j h1 h2
      simp only
      rw [if_neg (by omega)]
      exact ho j (by omega) (by omega))]
    simp only [Res.ok.injEq, Win.mk.injEq, true_and, and_true]
    refine ⟨?_, by omega⟩
    funext j
    by_cases h1 : i + 1 ≤ j ∧ j < i + 1 + n
    · rw [if_pos h1, if_pos (by omega)]
    · rw [if_neg h1]
      by_cases h2 : j = i
      · rw [if_pos h2, if_pos (by omega)]
      · rw [if_neg h2, if_neg (by omega)]

theorem closeDown_eq (stop : Nat) : ∀ (i : Nat) (w : Win), stop ≤ i → i < w.num →
    (∀ j, stop < j → j ≤ i → w.isOpen j = true) →
    w.closeDown stop i = .ok { w with isOpen := fun j => if stop < j ∧ j ≤ i then false else w.isOpen j,
                                      count := w.count - (i - stop) } := by
  intro i
  induction i with
  | zero =>
    intro w h1 h2 _
    simp only [Win.closeDown, Res.ok.injEq]
    have : stop = 0 := by omega
    subst this
    have h5 : (fun j => if 0 < j ∧ j ≤ 0 then false else w.isOpen j) = w.isOpen := by
      funext j
      rw [if_neg (by omega)]
    rw [h5]
    simp
  | succ i ih =>
    intro w h1 h2 ho
    simp only [Win.closeDown]
    by_cases hs : stop < i + 1
    · rw [if_pos hs]
      simp only [Win.close]
      rw [if_neg (by omega), if_pos (ho (i + 1) (by omega) (by omega))]
      simp only [Res.bind_ok]
      rw [ih _ (by omega) (by simp only; omega) (by
        intro j h3 h4
        simp only
        rw [if_neg (by omega)]
        exact ho j (by omega) (by omega))]
      simp only [Res.ok.injEq, Win.mk.injEq, true_and, and_true]
      refine ⟨?_, by omega⟩
      funext j
      by_cases h3 : stop < j ∧ j ≤ i
      · rw [if_pos h3, if_pos (by omega)]
      · rw [if_neg h3]
        by_cases h4 : j = i + 1
        · rw [if_pos h4, if_pos (by omega)]
        · rw [if_neg h4, if_neg (by omega)]
    · rw [if_neg hs]
      have : stop = i + 1 := by omega
      subst this
      simp only [Res.ok.injEq]
      have h5 : (fun j => if i + 1 < j ∧ j ≤ i + 1 then false else w.isOpen j) = w.isOpen := by
        funext j
        rw [if_neg (by omega)]
      rw [h5]
      simp

theorem openUp_eq (n : Nat) : ∀ (w : Win) (i : Nat), i + n ≤ w.num → w.count + n ≤ w.limit →
    w.openUp i n = .ok ({ w with isOpen := fun j => if i ≤ j ∧ j < i + n then true else w.isOpen j,
                                 count := w.count + n }, true) := by
  induction n with
  | zero =>
    intro w i _ _
    simp only [Win.openUp, Nat.add_zero, Res.ok.injEq, Prod.mk.injEq, and_true]
    have h5 : (fun j => if i ≤ j ∧ j < i then true else w.isOpen j) = w.isOpen := by
      funext j
      rw [if_neg (by omega)]
    rw [h5]
  | succ n ih =>
    intro w i hn hc
    simp only [Win.openUp, Win.fopen]
    rw [if_neg (by omega), if_neg (by omega)]
    simp only [Res.bind_ok, if_true]
    rw [ih _ _ (by simp only; omega) (by simp only; omega)]
    simp only [Res.ok.injEq, Prod.mk.injEq, Win.mk.injEq, true_and, and_true]
    refine ⟨?_, by omega⟩
    funext j
    by_cases h1 : i + 1 ≤ j ∧ j < i + 1 + n
    · rw [if_pos h1, if_pos (by omega)]
    · rw [if_neg h1]
      by_cases h2 : j = i
      · rw [if_pos h2, if_pos (by omega)]
      · rw [if_neg h2, if_neg (by omega)]

theorem openUp_fails (n : Nat) : ∀ (w : Win) (i : Nat), i + n ≤ w.num → w.count ≤ w.limit → w.limit < w.count + n →
    ∃ w', w.openUp i n = .ok (w', false) ∧ w'.count = w.limit := by
  induction n with
  | zero => intro w i _ _ _; omega
  | succ n ih =>
    intro w i hn hc hl
    simp only [Win.openUp, Win.fopen]
    rw [if_neg (by omega)]
    by_cases h : w.limit ≤ w.count
    · rw [if_pos h]
      exact ⟨_, rfl, by simp only; omega⟩
    · rw [if_neg h]
      simp only [Res.bind_ok, if_true]
      exact ih { w with isOpen := fun j => if j = i then true else w.isOpen j, count := w.count + 1 } (i + 1)
        (by simp only; omega) (by simp only; omega) (by simp only; omega)

theorem openDown_fails (cur : Nat) : ∀ (i : Nat) (w : Win), cur ≤ i → i < w.num → w.count ≤ w.limit →
    w.limit < w.count + (i - cur + 1) → ∃ w', w.openDown cur i = .ok (w', false) ∧ w'.count = w.limit := by
  intro i
  induction i with
  | zero =>
    intro w h1 h2 hc hl
    simp only [Win.openDown, Win.fopen]
    rw [if_pos (by omega), if_neg (by omega), if_pos (by omega)]
    exact ⟨_, rfl, by simp only; omega⟩
  | succ i ih =>
    intro w h1 h2 hc hl
    simp only [Win.openDown, Win.fopen]
    rw [if_pos h1, if_neg (by omega)]
    by_cases h : w.limit ≤ w.count
    · rw [if_pos h]
      exact ⟨_, rfl, by simp only; omega⟩
    · rw [if_neg h]
      simp only [Res.bind_ok, if_true]
      exact ih { w with isOpen := fun j => if j = i + 1 then true else w.isOpen j, count := w.count + 1 }
        (by omega) (by simp only; omega) (by simp only; omega) (by simp only; omega)

theorem openDown_eq (cur : Nat) (hcur : 0 < cur) : ∀ (i : Nat) (w : Win), cur ≤ i + 1 → i < w.num →
    w.count + (i + 1 - cur) ≤ w.limit →
    w.openDown cur i = .ok ({ w with isOpen := fun j => if cur ≤ j ∧ j ≤ i then true else w.isOpen j,
                                     count := w.count + (i + 1 - cur) }, true) := by
  intro i
  induction i with
  | zero =>
    intro w h1 h2 _
    simp only [Win.openDown]
    rw [if_neg (by omega)]
    have : cur = 1 := by omega
    subst this
    have h5 : (fun j => if 1 ≤ j ∧ j ≤ 0 then true else w.isOpen j) = w.isOpen := by
      funext j
      rw [if_neg (by omega)]
    rw [h5]
    simp
  | succ i ih =>
    intro w h1 h2 hl
    simp only [Win.openDown]
    by_cases h : cur ≤ i + 1
    · rw [if_pos h]
      simp only [Win.fopen]
      rw [if_neg (by omega), if_neg (by omega)]
      simp only [Res.bind_ok, if_true]
      rw [ih _ h (by simp only; omega) (by simp only; omega)]
      simp only [Res.ok.injEq, Prod.mk.injEq, Win.mk.injEq, true_and, and_true]
      refine ⟨?_, by omega⟩
      funext j
      by_cases h3 : cur ≤ j ∧ j ≤ i
      · rw [if_pos h3, if_pos (by omega)]
      · rw [if_neg h3]
        by_cases h4 : j = i + 1
        · rw [if_pos h4, if_pos (by omega)]
        · rw [if_neg h4, if_neg (by omega)]
    · rw [if_neg h]
      have : cur = i + 2 := by omega
      subst this
      have h5 : (fun j => if i + 2 ≤ j ∧ j ≤ i + 1 then true else w.isOpen j) = w.isOpen := by
        funext j
        rw [if_neg (by omega)]
      simp only [h5]
      simp

theorem openDown_ub : ∀ (i : Nat) (w : Win), i < w.num → w.count + (i + 1) ≤ w.limit → w.openDown 0 i = .ub := by
  intro i
  induction i with
  | zero =>
    intro w h1 h2
    simp only [Win.openDown, Win.fopen]
    rw [if_pos (by omega), if_neg (by omega), if_neg (by omega)]
    rfl
  | succ i ih =>
    intro w h1 h2
    simp only [Win.openDown, Win.fopen]
    rw [if_pos (by omega), if_neg (by omega), if_neg (by omega)]
    simp only [Res.bind_ok, if_true]
    exact ih _ (by simp only; omega) (by simp only; omega)

theorem sub64_nat {a b : Nat} (h : b ≤ a) (ha : a < u64) : sub64 a b = a - b := by
  unfold u64 at ha
  unfold sub64 u64
  omega

theorem openLoop_full (n : Nat) : ∀ (w : Win) (i : Nat), w.limit ≤ w.count → openLoop w i n = w := by
  induction n with
  | zero => intro w i _; rfl
  | succ n ih =>
    intro w i h
    simp only [openLoop]
    rw [if_pos h]
    exact ih w (i + 1) h

theorem openLoop_eq (n : Nat) : ∀ (w : Win) (i : Nat), w.count < w.limit → 0 < n →
    openLoop w i n = { w with isOpen := fun j => if i ≤ j ∧ j < i + min n (w.limit - w.count) then true else w.isOpen j,
                              count := w.count + min n (w.limit - w.count),
                              last := i + min n (w.limit - w.count) - 1 } := by
  induction n with
  | zero => intro w i _ h; omega
  | succ n ih =>
    intro w i h _
    simp only [openLoop]
    rw [if_neg (by omega)]
    by_cases hn : n = 0
    · subst hn
      have hm : min (0 + 1) (w.limit - w.count) = 1 := by omega
      simp only [openLoop, hm, Win.mk.injEq, true_and, and_true]
      refine ⟨?_, by omega⟩
      funext j
      by_cases h2 : j = i
      · rw [if_pos h2, if_pos (by omega)]
      · rw [if_neg h2, if_neg (by omega)]
    · by_cases hl : w.limit ≤ w.count + 1
      · rw [openLoop_full _ _ _ (by simp only; omega)]
        have hm : min (n + 1) (w.limit - w.count) = 1 := by omega
        simp only [hm, Win.mk.injEq, true_and, and_true]
        refine ⟨?_, by omega⟩
        funext j
        by_cases h2 : j = i
        · rw [if_pos h2, if_pos (by omega)]
        · rw [if_neg h2, if_neg (by omega)]
      · rw [ih _ _ (by simp only; omega) (by omega)]
        have hm : min (n + 1) (w.limit - w.count) = min n (w.limit - (w.count + 1)) + 1 := by omega
        simp only [hm]
        generalize min n (w.limit - (w.count + 1)) = k
        simp only [Win.mk.injEq, true_and, and_true]
        refine ⟨?_, by omega, by omega⟩
        funext j
        by_cases h1 : i + 1 ≤ j ∧ j < i + 1 + k
        · rw [if_pos h1, if_pos (by omega)]
        · rw [if_neg h1]
          by_cases h2 : j = i
          · rw [if_pos h2, if_pos (by omega)]
          · rw [if_neg h2, if_neg (by omega)]

/-! ## Theorems -/

/-- C85: opening a family opens as many of its first files as possible. -/
theorem c85_open (num count limit : Nat) (h0 : 0 < num) (h1 : num < u64) (hl : count < limit) :
    ∃ w, openWin num count limit = some w ∧ Good w ∧ w.num = num ∧ w.limit = limit ∧ w.first = 0 ∧
      w.width = min num (limit - count) ∧ w.count = count + w.width := by
  unfold openWin
  rw [openLoop_eq num _ 0 hl h0]
  simp only
  have hm : 0 < min num (limit - count) := by omega
  have hm1 : min num (limit - count) ≤ num := by omega
  generalize min num (limit - count) = k at hm hm1
  rw [if_neg (by omega)]
  refine ⟨_, rfl, ⟨by simp, by simp only; omega, h1, ?_, by simp only; omega⟩, rfl, rfl, rfl, ?_, ?_⟩
  · intro i
    simp only
    by_cases h : i < k
    · rw [if_pos (by omega)]
      exact (decide_eq_true (by omega)).symm
    · rw [if_neg (by omega)]
      exact (decide_eq_false (by omega)).symm
  · simp only [Win.width]; omega
  · simp only [Win.width]; omega

/-- C85, the part that holds without limits: if all files could be opened, then whatever is done all files
remain open and everything succeeds. -/
theorem c85_enough_partial (w : Win) (h : Good w) (ha : w.width = w.num) (cur : Nat) (hc : cur < w.num) :
    w.seek cur = .ok (w, true) ∧ (cur + 1 < w.num → w.next cur = .ok (w, true)) := by
  unfold Win.width at ha
  have h1 := h.bound
  have h2 := h.order
  have ho : ∀ i, i < w.num → w.isOpen i = true := by
    intro i hi
    rw [h.isOpen]
    exact decide_eq_true (by omega)
  refine ⟨?_, fun hn => ?_⟩
  · unfold Win.seek
    rw [if_neg (by omega), if_pos (ho cur hc)]
  · unfold Win.next
    rw [if_neg (by omega), if_pos (ho (cur + 1) hn)]

/-- C85: from an open file one can always go on to the next file; the number of open files stays the same. -/
theorem c85_next (w : Win) (h : Good w) (hl : w.count ≤ w.limit) (cur : Nat) (ho : w.isOpen cur = true)
    (hn : cur + 1 < w.num) :
    ∃ w', w.next cur = .ok (w', true) ∧ Good w' ∧ w'.isOpen (cur + 1) = true ∧ w'.width = w.width ∧
      w'.count = w.count ∧ w'.num = w.num ∧ w'.limit = w.limit := by
  have h1 := h.bound
  have h2 := h.order
  have h3 := h.count
  unfold Win.next
  rw [if_neg (by omega)]
  by_cases hx : w.isOpen (cur + 1) = true
  · rw [if_pos hx]
    exact ⟨w, rfl, h, hx, rfl, rfl, rfl, rfl⟩
  · rw [if_neg hx]
    rw [h.isOpen, decide_eq_true_eq] at ho
    rw [h.isOpen, decide_eq_true_eq] at hx
    have hcl : cur = w.last := by omega
    subst hcl
    simp only [Win.close]
    rw [if_neg (by omega), if_pos (by rw [h.isOpen]; exact decide_eq_true (by omega))]
    simp only [Res.bind_ok, Win.fopen]
    rw [if_neg (by omega), if_neg (by omega)]
    refine ⟨_, rfl, ⟨by simp only; omega, by simp only; omega, h.small, ?_, by simp only; omega⟩, by simp,
      by simp only [Win.width]; omega, by simp only; omega, rfl, rfl⟩
    intro i
    simp only
    by_cases e1 : i = w.last + 1
    · rw [if_pos e1]
      exact (decide_eq_true (by omega)).symm
    · rw [if_neg e1]
      by_cases e2 : i = w.first
      · rw [if_pos e2]
        exact (decide_eq_false (by omega)).symm
      · rw [if_neg e2, h.isOpen]
        by_cases e3 : w.first ≤ i ∧ i ≤ w.last
        · rw [decide_eq_true e3]
          exact (decide_eq_true (by omega)).symm
        · rw [decide_eq_false e3]
          exact (decide_eq_false (by omega)).symm

/-- Specification: going from the first file on, `m` times to the next file. -/
def walk (w : Win) : (m : Nat) → Res (Win × Bool)
  | 0 => .ok (w, true)
  | m + 1 => do
    let r ← walk w m
    if r.2 then r.1.next m else .ok r

/-- C85: all files of a family can be read one after the other, however many there are and however few can be
open, and never more files are open than could be opened at first. -/
theorem c85_walk (num count limit m : Nat) (h1 : num < u64) (hl : count < limit) (hm : m < num) :
    ∃ w w', openWin num count limit = some w ∧ walk w m = .ok (w', true) ∧ w'.isOpen m = true ∧ Good w' ∧
      w'.count = w.count ∧ w'.width = w.width ∧ w'.num = num ∧ w'.count ≤ limit := by
  obtain ⟨w, g1, g2, g3, g4, g5, g6, g7⟩ := c85_open num count limit (by omega) h1 hl
  have hcl : w.count ≤ limit := by omega
  suffices ∀ m, m < num → ∃ w', walk w m = .ok (w', true) ∧ w'.isOpen m = true ∧ Good w' ∧
      w'.count = w.count ∧ w'.width = w.width ∧ w'.num = num ∧ w'.limit = limit by
    obtain ⟨w', k1, k2, k3, k4, k5, k6, _⟩ := this m hm
    exact ⟨w, w', g1, k1, k2, k3, k4, k5, k6, by omega⟩
  intro m
  induction m with
  | zero =>
    intro _
    refine ⟨w, rfl, ?_, g2, rfl, rfl, g3, g4⟩
    rw [g2.isOpen]
    exact decide_eq_true (by omega)
  | succ m ih =>
    intro hm
    obtain ⟨w', k1, k2, k3, k4, k5, k6, k7⟩ := ih (by omega)
    obtain ⟨w2, e1, e2, e3, e4, e5, e6, e7⟩ := c85_next w' k3 (by omega) m k2 (by omega)
    refine ⟨w2, ?_, e3, e2, by omega, by omega, by omega, by omega⟩
    simp only [walk]
    rw [k1]
    simp only [Res.bind_ok, if_true]
    exact e1

/-- C85: a file that is further away from the open files than there are open files can be reached. -/
theorem c85_far (w : Win) (h : Good w) (hl : w.count ≤ w.limit) (hw : 2 ≤ w.width) (cur : Nat) (hc : cur < w.num)
    (hfar : w.last + w.width < cur ∨ cur + w.width < w.first) :
    ∃ w', w.seek cur = .ok (w', true) ∧ Good w' ∧ w'.isOpen cur = true ∧ w'.width = w.width ∧
      w'.count = w.count ∧ w'.num = w.num ∧ w'.limit = w.limit := by
  have h1 := h.bound
  have h2 := h.order
  have h3 := h.count
  have h4 := h.small
  unfold Win.width at hw hfar
  unfold Win.seek
  rw [if_neg (by omega)]
  have hno : ¬ w.isOpen cur = true := by
    rw [h.isOpen, decide_eq_true_eq]; omega
  rw [if_neg hno]
  have hor : w.outOfRange cur = true := by
    unfold Win.outOfRange
    rw [if_pos (by omega)]
    by_cases hx : cur > w.last
    · rw [if_pos hx]; exact decide_eq_true (by omega)
    · rw [if_neg hx, sub64_nat (by omega) (by omega)]; exact decide_eq_true (by omega)
  rw [if_pos hor]
  unfold Win.jump
  dsimp only
  rw [closeUp_eq _ _ _ (by omega) (by
    intro j e1 e2
    rw [h.isOpen]
    exact decide_eq_true (by omega))]
  simp only [Res.bind_ok]
  have hbound : ∀ off, off = (if w.num - cur < w.last + 1 - w.first then cur - (w.num - (w.last + 1 - w.first)) else 0) →
      off ≤ cur ∧ cur - off + (w.last + 1 - w.first) ≤ w.num ∧ cur < cur - off + (w.last + 1 - w.first) := by
    intro off ho
    split at ho <;> omega
  generalize (if w.num - cur < w.last + 1 - w.first then cur - (w.num - (w.last + 1 - w.first)) else 0) = off
    at hbound
  obtain ⟨b1, b2, b3⟩ := hbound off rfl
  rw [openUp_eq _ _ _ (by simp only; omega) (by simp only; omega)]
  simp only [Res.bind_ok, if_true]
  rw [if_pos (by rw [if_pos (by omega)])]
  refine ⟨_, rfl, ⟨by simp only; omega, by simp only; omega, h.small, ?_, by simp only; omega⟩, ?_, ?_, ?_, rfl, rfl⟩
  · intro i
    simp only
    by_cases e1 : cur - off ≤ i ∧ i < cur - off + (w.last + 1 - w.first)
    · rw [if_pos e1]
      exact (decide_eq_true (by omega)).symm
    · rw [if_neg e1]
      have e3 : ¬ (cur - off ≤ i ∧ i ≤ cur - off + (w.last + 1 - w.first) - 1) := by omega
      rw [decide_eq_false e3]
      by_cases e2 : w.first ≤ i ∧ i < w.first + (w.last + 1 - w.first)
      · rw [if_pos e2]
      · rw [if_neg e2, h.isOpen]
        exact decide_eq_false (by omega)
  · simp only; rw [if_pos (by omega)]
  · simp only [Win.width]; omega
  · simp only; omega

/-- C85, violation, for all families and limits: a file that is not open and not further away from the open
files than there are open files cannot be reached if the process has no free files. -/
theorem c85_near_fails (w : Win) (h : Good w) (hl : w.count = w.limit) (hw : 2 ≤ w.width) (cur : Nat)
    (hc : cur < w.num) (hno : w.isOpen cur = false)
    (hnear : cur ≤ w.last + w.width ∧ w.first ≤ cur + w.width) :
    ∃ w', w.seek cur = .ok (w', false) := by
  have h1 := h.bound
  have h2 := h.order
  have h3 := h.count
  have h4 := h.small
  unfold Win.width at hw hnear
  unfold Win.seek
  rw [if_neg (by omega), hno]
  simp only [Bool.false_eq_true, if_false]
  rw [h.isOpen, decide_eq_false_iff_not] at hno
  have hor : w.outOfRange cur = false := by
    unfold Win.outOfRange
    rw [if_pos (by omega)]
    by_cases hx : cur > w.last
    · rw [if_pos hx]; exact decide_eq_false (by omega)
    · rw [if_neg hx, sub64_nat (by omega) (by omega)]; exact decide_eq_false (by omega)
  rw [hor]
  simp only [Bool.false_eq_true, if_false]
  rw [if_pos (by omega)]
  by_cases hx : cur < w.first
  · rw [if_pos hx]
    unfold Win.moveBack
    dsimp only
    rw [sub64_nat (by omega) (by omega), closeDown_eq _ _ _ (by omega) (by omega) (by
      intro j e1 e2
      rw [h.isOpen]
      exact decide_eq_true (by omega))]
    simp only [Res.bind_ok]
    obtain ⟨w', e1, _⟩ := openDown_fails cur w.first
      { num := w.num, isOpen := fun j => if w.last - (w.first - cur) < j ∧ j ≤ w.last then false else w.isOpen j,
        first := w.first, last := sub64 w.last (w.first - cur),
        count := w.count - (w.last - (w.last - (w.first - cur))), limit := w.limit } (by omega)
      (by simp only; omega) (by simp only; omega) (by simp only; omega)
    rw [e1]
    exact ⟨w', rfl⟩
  · rw [if_neg hx]
    unfold Win.moveOn
    dsimp only
    rw [sub64_nat (by omega) (by omega), closeUp_eq _ _ _ (by omega) (by
      intro j e1 e2
      rw [h.isOpen]
      exact decide_eq_true (by omega))]
    simp only [Res.bind_ok]
    obtain ⟨w', e1, _⟩ := openUp_fails (cur + 1 - w.last)
      { num := w.num, isOpen := fun j => if w.first ≤ j ∧ j < w.first + (cur - w.last) then false else w.isOpen j,
        first := w.first + (cur - w.last), last := w.last,
        count := w.count - (cur - w.last), limit := w.limit } w.last
      (by simp only; omega) (by simp only; omega) (by simp only; omega)
    rw [e1]
    exact ⟨w', rfl⟩

/-- C85, violation: if the process has a free file meanwhile, then going back by at most the number of open files
works but uses up one more `FILE` object than before, and going back to the first file of the family goes outside
of the array. -/
theorem c85_near_free (w : Win) (h : Good w) (hl : w.count < w.limit) (hw : 2 ≤ w.width) (cur : Nat)
    (hc : cur < w.first) (hnear : w.first ≤ cur + w.width) :
    (cur = 0 → w.seek cur = .ub) ∧
    (0 < cur → ∃ w', w.seek cur = .ok (w', true) ∧ w'.isOpen cur = true ∧ w'.count = w.count + 1 ∧
      w'.width = w.width) := by
  have h1 := h.bound
  have h2 := h.order
  have h3 := h.count
  have h4 := h.small
  unfold Win.width at hw hnear
  have hno : ¬ w.isOpen cur = true := by
    rw [h.isOpen, decide_eq_true_eq]; omega
  have hor : ¬ w.outOfRange cur = true := by
    unfold Win.outOfRange
    rw [if_pos (by omega), if_neg (by omega), sub64_nat (by omega) (by omega), decide_eq_true_eq]; omega
  have hcl : w.closeDown (w.last - (w.first - cur)) w.last = .ok
      { w with isOpen := fun j => if w.last - (w.first - cur) < j ∧ j ≤ w.last then false else w.isOpen j,
               count := w.count - (w.last - (w.last - (w.first - cur))) } :=
    closeDown_eq _ _ _ (by omega) (by omega) (by
      intro j e1 e2
      rw [h.isOpen]
      exact decide_eq_true (by omega))
  constructor
  · intro h0
    unfold Win.seek
    rw [if_neg (by omega), if_neg hno, if_neg hor, if_pos (by omega), if_pos hc]
    unfold Win.moveBack
    dsimp only
    rw [sub64_nat (by omega) (by omega), hcl]
    simp only [Res.bind_ok]
    subst h0
    rw [openDown_ub _ _ (by simp only; omega) (by simp only; omega)]
    rfl
  · intro h0
    unfold Win.seek
    rw [if_neg (by omega), if_neg hno, if_neg hor, if_pos (by omega), if_pos hc]
    unfold Win.moveBack
    dsimp only
    rw [sub64_nat (by omega) (by omega), hcl]
    simp only [Res.bind_ok]
    rw [openDown_eq cur h0 _ _ (by omega) (by simp only; omega) (by simp only; omega)]
    simp only [Res.bind_ok, if_true]
    rw [if_pos (by rw [if_pos (by omega)])]
    refine ⟨_, rfl, by simp only; rw [if_pos (by omega)], by simp only; omega, ?_⟩
    simp only [Win.width]
    rw [sub64_nat (by omega) (by omega)]
    omega

/-- C85, violation: with a free file going forward by at most the number of open files works too, and it
uses up one more `FILE` object than before as well: the last open file is opened a second time. -/
theorem c85_near_free_on (w : Win) (h : Good w) (hl : w.count < w.limit) (hw : 2 ≤ w.width) (cur : Nat)
    (hc : w.last < cur) (hn : cur < w.num) (hnear : cur ≤ w.last + w.width) :
    ∃ w', w.seek cur = .ok (w', true) ∧ w'.isOpen cur = true ∧ w'.count = w.count + 1 ∧ w'.width = w.width ∧
      w'.last = cur := by
  have h1 := h.bound
  have h2 := h.order
  have h3 := h.count
  have h4 := h.small
  unfold Win.width at hw hnear
  have hno : ¬ w.isOpen cur = true := by
    rw [h.isOpen, decide_eq_true_eq]; omega
  have hor : ¬ w.outOfRange cur = true := by
    unfold Win.outOfRange
    rw [if_pos (by omega), if_pos (by omega), decide_eq_true_eq]; omega
  unfold Win.seek
  rw [if_neg (by omega), if_neg hno, if_neg hor, if_pos (by omega), if_neg (by omega)]
  unfold Win.moveOn
  dsimp only
  rw [sub64_nat (by omega) (by omega), closeUp_eq _ _ _ (by omega) (by
    intro j e1 e2
    rw [h.isOpen]
    exact decide_eq_true (by omega))]
  simp only [Res.bind_ok]
  rw [openUp_eq _ _ _ (by simp only; omega) (by simp only; omega)]
  simp only [Res.bind_ok, if_true]
  rw [if_pos (by rw [if_pos (by omega)])]
  refine ⟨_, rfl, by simp only; rw [if_pos (by omega)], by simp only; omega, ?_, rfl⟩
  simp only [Win.width]
  omega

/-- C85: a family is refused exactly if it has no files or the process has no free file. -/
theorem c85_open_none (num count limit : Nat) (h1 : num < u64) :
    openWin num count limit = none ↔ num = 0 ∨ limit ≤ count := by
  constructor
  · intro h
    by_cases h0 : num = 0
    · exact .inl h0
    · by_cases hl : limit ≤ count
      · exact .inr hl
      · obtain ⟨w, e, _⟩ := c85_open num count limit (by omega) h1 (by omega)
        rw [e] at h
        cases h
  · intro h
    have : openLoop ⟨num, fun _ => false, 0, u64 - 1, count, limit⟩ 0 num =
        ⟨num, fun _ => false, 0, u64 - 1, count, limit⟩ := by
      rcases h with h | h
      · subst h; rfl
      · exact openLoop_full num _ _ h
    unfold openWin
    rw [this]
    rfl

/-- C85: a file outside of the family is never opened, closed or read: such an access is undefined. -/
theorem c85_outside (w : Win) (i : Nat) (h : w.num ≤ i) :
    w.seek i = .ub ∧ w.fopen i = .ub ∧ w.close i = .ub ∧ (i = w.num → 0 < i → w.next (i - 1) = .ub) := by
  refine ⟨if_pos h, if_pos h, if_pos h, fun e1 e2 => if_pos ?_⟩
  omega

/-- C85, violation: if only one file can be open, every seek to another file uses a null pointer. -/
theorem c85_single_ub (w : Win) (h : Good w) (hw : w.width = 1) (cur : Nat) (hc : cur < w.num)
    (hno : w.isOpen cur = false) : w.seek cur = .ub := by
  have h2 := h.order
  unfold Win.width at hw
  unfold Win.seek
  rw [if_neg (by omega), hno]
  simp only [Bool.false_eq_true, if_false]
  have hor : ¬ w.outOfRange cur = true := by
    unfold Win.outOfRange
    rw [if_neg (by omega)]
    simp
  rw [if_neg hor, if_neg (by omega)]
  simp only [Res.bind_ok, if_true]
  rw [hno]
  rfl

/-- C85, violation as a user sees it: a family of which `k` files could be opened, because the process may not
have more, has been opened. Reading something that is in the first of the other files is an error, or undefined
behaviour if only one file is open. -/
theorem c85_first_unopened (num count limit : Nat) (h1 : num < u64) (hl : count < limit)
    (hk : limit - count < num) :
    ∃ w, openWin num count limit = some w ∧
      (2 ≤ limit - count → ∃ w', w.seek (limit - count) = .ok (w', false)) ∧
      (limit - count = 1 → w.seek (limit - count) = .ub) := by
  obtain ⟨w, g1, g2, g3, g4, g5, g6, g7⟩ := c85_open num count limit (by omega) h1 hl
  have hw : w.width = limit - count := by omega
  have hlast : w.last = limit - count - 1 := by
    unfold Win.width at hw; omega
  have hno : w.isOpen (limit - count) = false := by
    rw [g2.isOpen]; exact decide_eq_false (by omega)
  refine ⟨w, g1, fun h2 => ?_, fun h2 => ?_⟩
  · exact c85_near_fails w g2 (by omega) (by omega) _ (by omega) hno (by omega)
  · exact c85_single_ub w g2 (by omega) _ (by omega) hno

/-- C85, as a user sees it: after all files have been read one after the other, the first file can be reached
again if and only if all files are open or there are more than twice as many files as can be open. -/
theorem c85_back_to_start (num count limit : Nat) (h0 : 0 < num) (h1 : num < u64) (hl : count + 2 ≤ limit) :
    ∃ w w', openWin num count limit = some w ∧ walk w (num - 1) = .ok (w', true) ∧
      ((∃ w'', w'.seek 0 = .ok (w'', true)) ↔ num ≤ limit - count ∨ 2 * (limit - count) < num) := by
  obtain ⟨w0, g1, _, _, _, _, g6, g7⟩ := c85_open num count limit h0 h1 (by omega)
  obtain ⟨w, w', k1, k2, k3, k4, k5, k6, k7, k8⟩ := c85_walk num count limit (num - 1) h1 (by omega) (by omega)
  rw [g1] at k1
  cases k1
  refine ⟨w0, w', g1, k2, ?_⟩
  have hb := k4.bound
  have ho := k4.order
  have hlim : w'.limit = limit := by
    have : ∀ m (v : Win × Bool), walk w0 m = .ok v → v.1.limit = w0.limit := by
      intro m
      induction m with
      | zero => intro v hv; cases hv; rfl
      | succ m ih =>
        intro v hv
        simp only [walk] at hv
        cases hw : walk w0 m with
        | ok r =>
          rw [hw] at hv
          simp only [Res.bind_ok] at hv
          have hr := ih r hw
          split at hv
          · unfold Win.next at hv
            split at hv
            · cases hv
            · split at hv
              · cases hv; exact hr
              · simp only [Win.close] at hv
                split at hv
                · cases hv
                · split at hv
                  · simp only [Res.bind_ok, Win.fopen] at hv
                    split at hv
                    · cases hv
                    · split at hv <;> (cases hv; exact hr)
                  · simp only [Res.bind_ok, Win.fopen] at hv
                    split at hv
                    · cases hv
                    · split at hv <;> (cases hv; exact hr)
          · cases hv; exact hr
        | err => rw [hw] at hv; cases hv
        | ub => rw [hw] at hv; cases hv
        | abort => rw [hw] at hv; cases hv
    rw [this _ _ k2]
    unfold openWin at g1
    rw [openLoop_eq num _ 0 (by simp only; omega) h0] at g1
    simp only at g1
    split at g1
    · cases g1
    · cases g1; rfl
  rw [k4.isOpen, decide_eq_true_eq] at k3
  have hwid : w'.last - w'.first + 1 = min num (limit - count) := by
    rw [← g6, ← k6]; rfl
  by_cases hall : num ≤ limit - count
  · have ho0 : w'.isOpen 0 = true := by rw [k4.isOpen]; exact decide_eq_true (by omega)
    refine ⟨fun _ => .inl hall, fun _ => ⟨w', ?_⟩⟩
    unfold Win.seek
    rw [if_neg (by omega), if_pos ho0]
  · have hno : w'.isOpen 0 = false := by rw [k4.isOpen]; exact decide_eq_false (by omega)
    by_cases hfar : 2 * (limit - count) < num
    · refine ⟨fun _ => .inr hfar, fun _ => ?_⟩
      obtain ⟨w2, e1, _⟩ := c85_far w' k4 (by omega) (by unfold Win.width; omega) 0 (by omega)
        (.inr (by unfold Win.width; omega))
      exact ⟨w2, e1⟩
    · obtain ⟨w2, e1⟩ := c85_near_fails w' k4 (by omega) (by unfold Win.width; omega) 0 (by omega) hno
        (by unfold Win.width; omega)
      rw [e1]
      constructor
      · rintro ⟨w3, h⟩
        simp at h
      · intro h
        exfalso
        omega

/-- Not vacuous: 10 files of which 4 can be open. The states are the expected ones. -/
example : (∃ w, openWin 10 3 7 = some w ∧ Good w ∧ w.width = 4 ∧ w.count = w.limit) ∧
    (∃ w w', openWin 10 3 7 = some w ∧ w.seek 8 = .ok (w', true) ∧ w'.first = 6 ∧ w'.last = 9) := by
  obtain ⟨w, g1, g2, g3, g4, g5, g6, g7⟩ := c85_open 10 3 7 (by decide) (by decide) (by decide)
  refine ⟨⟨w, g1, g2, by omega, by omega⟩, ⟨_, _, rfl, rfl, by decide, by decide⟩⟩

end Dyna.Window
