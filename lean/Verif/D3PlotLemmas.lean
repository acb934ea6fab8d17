import Verif.D3Plot
import Verif.Props.D3Buffer
/-!
# Steps of opening in terms of the words of the family
-/

namespace Dyna.D3

/-- The bytes of word `k`. Part of the specification, models no code. -/
def wordBytes (b : Buf) (k : Nat) : Bytes := (b.bytes.drop (k * b.ws)).take b.ws

/-- The value of word `k`. Part of the specification, models no code. -/
def wordAt (b : Buf) (k : Nat) : Nat := ctrl b.bytes b.ws k

/-- A buffer without an error whose files consist of whole words.
Part of the specification, models no code. -/
structure Good (b : Buf) : Prop where
  err : b.err = false
  ws : 0 < b.ws
  ws8 : b.ws ≤ 8
  size : b.bytes.length < 2 ^ 63
  aligned : Aligned b

/-- The pointer is open and at word `k`. Part of the specification, models no code. -/
def At (b : Buf) (k : Nat) (s : S) : Prop :=
  s.b = b ∧ ∃ q, s.p = some q ∧ Valid b q ∧ absPos b q = k * b.ws ∧ q.word = k

/-- Like `At`, and the last byte before the position is in the same file.
Part of the specification, models no code. -/
def Behind (b : Buf) (k : Nat) (s : S) : Prop :=
  s.b = b ∧ ∃ q, s.p = some q ∧ Valid b q ∧ absPos b q = k * b.ws ∧ q.word = k ∧ 0 < q.pos

/-- The pointer has been closed by an error. Part of the specification, models no code. -/
def Dead (s : S) : Prop := s.p = none ∧ s.b.err = true

theorem Behind.at {b : Buf} {k : Nat} {s : S} (h : Behind b k s) : At b k s := by
  obtain ⟨h1, q, h2, h3, h4, h5, _⟩ := h
  exact ⟨h1, q, h2, h3, h4, h5⟩

/-- Number of words. Part of the specification, models no code. -/
def words (b : Buf) : Nat := b.bytes.length / b.ws

theorem words_mul {b : Buf} (g : Good b) : words b * b.ws = b.bytes.length :=
  Nat.div_mul_cancel (aligned_bytes g.aligned)

theorem lt_words {b : Buf} (g : Good b) {k : Nat} : k < words b ↔ k * b.ws < b.bytes.length := by
  rw [← words_mul g]
  exact ⟨fun h => Nat.mul_lt_mul_of_pos_right h g.ws, fun h => Nat.lt_of_mul_lt_mul_right h⟩

theorem le_words {b : Buf} (g : Good b) {k : Nat} : k ≤ words b ↔ k * b.ws ≤ b.bytes.length := by
  rw [← words_mul g]
  exact ⟨fun h => Nat.mul_le_mul_right _ h, fun h => Nat.le_of_mul_le_mul_right h g.ws⟩

theorem words_small {b : Buf} (g : Good b) : words b < 2 ^ 63 := by
  have h := words_mul g
  have h1 : words b ≤ words b * b.ws := Nat.le_mul_of_pos_right _ g.ws
  have := g.size
  omega

theorem at_le {b : Buf} (g : Good b) {k : Nat} {s : S} (h : At b k s) : k ≤ words b := by
  obtain ⟨_, q, _, ⟨cur, hf, hp⟩, h4, _⟩ := h
  rw [le_words g, ← h4]
  have := base_le hf
  unfold absPos Buf.bytes
  omega

theorem at_dvd {b : Buf} (g : Good b) {k : Nat} {q : Pos} (h4 : absPos b q = k * b.ws) :
    b.ws ∣ q.pos := by
  have h1 := aligned_base (b := b) g.aligned q.file
  have h2 : b.ws ∣ absPos b q := by rw [h4]; exact ⟨k, Nat.mul_comm _ _⟩
  exact (Nat.dvd_add_right h1).1 h2

/-! ## Total steps -/

theorem bind_eq {α β : Type} (m : M α) (f : α → M β) (s : S) :
    (m >>= f) s =
      match m s with
      | .ok (a, s') => f a s'
      | .err => .err
      | .ub => .ub
      | .abort => .abort := rfl

theorem pure_eq {α : Type} (a : α) (s : S) : (pure a : M α) s = .ok (a, s) := rfl

theorem bind_ok {α β : Type} {m : M α} {f : α → M β} {s s' : S} {a : α} (h : m s = .ok (a, s')) :
    (m >>= f) s = f a s' := by rw [bind_eq, h]

theorem bind_inv {α β : Type} {m : M α} {f : α → M β} {s s'' : S} {r : β}
    (h : (m >>= f) s = .ok (r, s'')) : ∃ a s', m s = .ok (a, s') ∧ f a s' = .ok (r, s'') := by
  rw [bind_eq] at h
  cases e : m s with
  | ok x => rw [e] at h; exact ⟨x.1, x.2, rfl, h⟩
  | err => rw [e] at h; cases h
  | ub => rw [e] at h; cases h
  | abort => rw [e] at h; cases h

theorem rd_of {s s' : S} {bytes : Bytes} (h : rdBytes 1 s = .ok (bytes, s')) :
    rd s = .ok (leNat bytes, s') := by
  unfold rd
  rw [bind_ok h]
  rfl

/-- Reading words that are there. -/
theorem rdBytes_at {b : Buf} (g : Good b) {k n : Nat} {s : S} (h : At b k s)
    (hk : k + n ≤ words b) (hn : 0 < n) :
    ∃ s', rdBytes n s = .ok ((b.bytes.drop (k * b.ws)).take (n * b.ws), s') ∧ Behind b (k + n) s' := by
  obtain ⟨h1, q, h2, h3, h4, h5⟩ := h
  have hlen := (le_words g).1 hk
  rw [Nat.add_mul] at hlen
  have hs := g.size
  have hnw : 0 < n * b.ws := Nat.mul_pos hn g.ws
  obtain ⟨q', r1, r2, r3, r4, r5, _⟩ := read_inside (n := n) h3 (by unfold u64; omega) (by omega)
  refine ⟨⟨b, some q'⟩, ?_, rfl, q', rfl, r2, ?_, ?_, r4 hnw⟩
  · unfold rdBytes
    rw [h1, h2, r1]
    simp only [h4]
  · rw [r3, h4, Nat.add_mul]
  · rw [r5 g.aligned (at_dvd g h4) g.ws, h5]

/-- Reading behind the end. -/
theorem rdBytes_end {b : Buf} (g : Good b) {k n : Nat} {s : S} (h : At b k s) (hn : n * b.ws < u64)
    (hk : words b < k + n) :
    ∃ bytes, rdBytes n s = .ok (bytes, ⟨{ b with err := true }, none⟩) := by
  obtain ⟨h1, q, h2, h3, h4, h5⟩ := h
  have hlen : b.bytes.length < (k + n) * b.ws := by
    have := (le_words (k := k + n) g)
    omega
  rw [Nat.add_mul] at hlen
  obtain ⟨bytes, r1⟩ := read_outside (n := n) h3 hn (by omega)
  refine ⟨bytes, ?_⟩
  unfold rdBytes
  rw [h1, h2, r1]

/-- A word that is there. -/
theorem rd_at {b : Buf} (g : Good b) {k : Nat} {s : S} (h : At b k s) (hk : k < words b) :
    ∃ s', rd s = .ok (wordAt b k, s') ∧ Behind b (k + 1) s' := by
  obtain ⟨s', e1, e2⟩ := rdBytes_at g h hk (Nat.zero_lt_one)
  refine ⟨s', ?_, e2⟩
  rw [rd_of e1]
  simp only [wordAt, ctrl, Nat.one_mul]

theorem rd_end {b : Buf} (g : Good b) {k : Nat} {s : S} (h : At b k s) (hk : words b ≤ k) :
    ∃ w, rd s = .ok (w, ⟨{ b with err := true }, none⟩) := by
  obtain ⟨bytes, e1⟩ := rdBytes_end g h (n := 1) (by have := g.ws8; unfold u64; omega) (by omega)
  exact ⟨leNat bytes, rd_of e1⟩

theorem rdSigned_at {b : Buf} (g : Good b) {k : Nat} {s : S} (h : At b k s) (hk : k < words b) :
    ∃ s', rdSigned s = .ok (signed b.ws (wordAt b k), s') ∧ Behind b (k + 1) s' := by
  obtain ⟨s1, e1, e2⟩ := rd_at g h hk
  refine ⟨s1, ?_, e2⟩
  unfold rdSigned
  rw [e1, h.1]

/-- Skipping to a word that is there. -/
theorem skip_at {b : Buf} (g : Good b) {k n : Nat} {s : S} (h : At b k s) (hk : k + n < words b) :
    ∃ s', skip n s = .ok ((), s') ∧ At b (k + n) s' := by
  obtain ⟨h1, q, h2, h3, h4, h5⟩ := h
  have hlen := (lt_words g).1 hk
  have hs := g.size
  have hw := words_small g
  obtain ⟨q', r1, r2, r3, r4⟩ := seek_inside (b := b) (w := k + n) (by unfold u64; omega) hlen
  refine ⟨⟨b, some q'⟩, ?_, rfl, q', rfl, r2, r3, r4⟩
  unfold skip skipWords
  rw [h1, h2]
  simp only [h5]
  have hu : ulongMax = 2 ^ 64 - 1 := by decide
  rw [if_neg (by omega), r1]

/-- Skipping behind the last word. -/
theorem skip_end {b : Buf} (g : Good b) {k n : Nat} {s : S} (h : At b k s) (hk : words b ≤ k + n)
    (h64 : (k + n) * b.ws < u64) :
    skip n s = .ok ((), ⟨{ b with err := true }, none⟩) := by
  obtain ⟨h1, q, h2, h3, h4, h5⟩ := h
  have hlen : b.bytes.length ≤ (k + n) * b.ws := by rw [← words_mul g]; exact Nat.mul_le_mul_right _ hk
  have r1 := seek_outside (b := b) (w := k + n) h64 hlen
  unfold skip skipWords
  rw [h1, h2]
  simp only [h5]
  by_cases hc : ulongMax - n ≤ k
  · rw [if_pos hc]
  · rw [if_neg hc, r1]

/-! ## Errors -/

theorem rdBytes_dead {n : Nat} {s : S} (h : Dead s) : rdBytes n s = .ub := by
  unfold rdBytes readWords
  rw [h.1]

theorem rd_dead {s : S} (h : Dead s) : rd s = .ub := by
  unfold rd
  rw [bind_eq, rdBytes_dead h]

theorem skip_dead {n : Nat} {s : S} (h : Dead s) : ∃ s', skip n s = .ok ((), s') ∧ Dead s' := by
  refine ⟨⟨{ s.b with err := true }, none⟩, ?_, rfl, rfl⟩
  unfold skip skipWords
  rw [h.1]

/-- An error stays an error. Part of the specification, models no code. -/
def Mono {α : Type} (m : M α) : Prop := ∀ s a s', Dead s → m s = .ok (a, s') → Dead s'

theorem mono_pure {α : Type} (a : α) : Mono (pure a : M α) := by
  intro s x s' hd h
  cases h
  exact hd

theorem mono_rd {α : Type} (f : Nat → M α) : Mono (rd >>= f) := by
  intro s x s' hd h
  rw [bind_eq, rd_dead hd] at h
  cases h

theorem mono_rdSigned {α : Type} (f : Int → M α) : Mono (rdSigned >>= f) := by
  intro s x s' hd h
  have : rdSigned s = .ub := by unfold rdSigned; rw [rd_dead hd]
  rw [bind_eq, this] at h
  cases h

theorem mono_bind {α β : Type} {m : M α} {f : α → M β} (hm : Mono m) (hf : ∀ a, Mono (f a)) :
    Mono (m >>= f) := by
  intro s x s' hd h
  obtain ⟨a, s1, e1, e2⟩ := bind_inv h
  exact hf a s1 x s' (hm s a s1 hd e1) e2

theorem mono_skip1 (n : Nat) : Mono (skip n) := by
  intro s x s' hd h
  obtain ⟨s1, e1, e2⟩ := skip_dead (n := n) hd
  rw [e1] at h
  cases h
  exact e2

theorem mono_skip {α : Type} {n : Nat} {f : Unit → M α} (h : Mono (f ())) : Mono (skip n >>= f) :=
  mono_bind (mono_skip1 n) (fun _ => h)

/-- A step that reads a word: if the result is not an error, the value is the word of the file. -/
theorem rd_step {α : Type} {b : Buf} (g : Good b) {k : Nat} {s s' : S} {f : Nat → M α} {r : α}
    (h : At b k s) (e : (rd >>= f) s = .ok (r, s')) (hl : ¬ Dead s') (hf : ∀ w, Mono (f w)) :
    ∃ s1, Behind b (k + 1) s1 ∧ f (wordAt b k) s1 = .ok (r, s') := by
  by_cases hk : k < words b
  · obtain ⟨s1, e1, e2⟩ := rd_at g h hk
    rw [bind_ok e1] at e
    exact ⟨s1, e2, e⟩
  · obtain ⟨w, e1⟩ := rd_end g h (Nat.le_of_not_lt hk)
    rw [bind_ok e1] at e
    exact absurd (hf w _ _ _ ⟨rfl, rfl⟩ e) hl

theorem rdSigned_step {α : Type} {b : Buf} (g : Good b) {k : Nat} {s s' : S} {f : Int → M α} {r : α}
    (h : At b k s) (e : (rdSigned >>= f) s = .ok (r, s')) (hl : ¬ Dead s') (hf : ∀ w, Mono (f w)) :
    ∃ s1, Behind b (k + 1) s1 ∧ f (signed b.ws (wordAt b k)) s1 = .ok (r, s') := by
  by_cases hk : k < words b
  · obtain ⟨s1, e1, e2⟩ := rd_at g h hk
    have : rdSigned s = .ok (signed b.ws (wordAt b k), s1) := by unfold rdSigned; rw [e1, h.1]
    rw [bind_ok this] at e
    exact ⟨s1, e2, e⟩
  · obtain ⟨w, e1⟩ := rd_end g h (Nat.le_of_not_lt hk)
    have : rdSigned s = .ok (signed b.ws w, ⟨{ b with err := true }, none⟩) := by
      unfold rdSigned; rw [e1, h.1]
    rw [bind_ok this] at e
    exact absurd (hf _ _ _ _ ⟨rfl, rfl⟩ e) hl

theorem skip_step {α : Type} {b : Buf} (g : Good b) {k n : Nat} {s s' : S} {f : Unit → M α} {r : α}
    (hn : (k + n) * b.ws < u64)
    (h : At b k s) (e : (skip n >>= f) s = .ok (r, s')) (hl : ¬ Dead s') (hf : Mono (f ())) :
    ∃ s1, At b (k + n) s1 ∧ k + n < words b ∧ f () s1 = .ok (r, s') := by
  by_cases hk : k + n < words b
  · obtain ⟨s1, e1, e2⟩ := skip_at g h hk
    rw [bind_ok e1] at e
    exact ⟨s1, e2, hk, e⟩
  · have e1 := skip_end g h (Nat.le_of_not_lt hk) hn
    rw [bind_ok e1] at e
    exact absurd (hf _ _ _ ⟨rfl, rfl⟩ e) hl

/-- A small skip cannot overflow. -/
theorem small_skip {b : Buf} (g : Good b) {k n : Nat} {s : S} (h : At b k s) (hn : n ≤ 2 ^ 59) :
    (k + n) * b.ws < u64 := by
  have h1 := (le_words g).1 (at_le g h)
  have h2 := g.size
  have h3 : n * b.ws ≤ 2 ^ 59 * 8 := Nat.mul_le_mul hn g.ws8
  rw [Nat.add_mul]
  unfold u64
  omega

/-! ## Control data -/

/-- The control words at their positions in the file. Part of the specification, models no code. -/
def rawAt (b : Buf) : Raw where
  ndim := wordAt b 15
  numnp := wordAt b 16
  icode := wordAt b 17
  nglbv := wordAt b 18
  it := wordAt b 19
  iu := wordAt b 20
  iv := wordAt b 21
  ia := wordAt b 22
  nel8 := signed b.ws (wordAt b 23)
  nummat8 := wordAt b 24
  numds := wordAt b 25
  numst := wordAt b 26
  nv3d := wordAt b 27
  nel2 := wordAt b 28
  nummat2 := wordAt b 29
  nv1d := wordAt b 30
  nel4 := wordAt b 31
  nummat4 := wordAt b 32
  nv2d := wordAt b 33
  neiph := wordAt b 34
  neips := wordAt b 35
  maxint := signed b.ws (wordAt b 36)
  nmsph := wordAt b 37
  narbs := wordAt b 39
  nelt := wordAt b 40
  nummatt := wordAt b 41
  nv3dt := wordAt b 42
  ioshl0 := wordAt b 43
  ioshl1 := wordAt b 44
  ioshl2 := wordAt b 45
  ioshl3 := wordAt b 46
  ialemat := wordAt b 47
  ncfdv1 := wordAt b 48
  nadapt := wordAt b 50
  nmmat := wordAt b 51
  npefg := wordAt b 54
  nel48 := wordAt b 55
  idtdt := wordAt b 56
  extra := wordAt b 57

/-- The words of the additional block, without NPART. Part of the specification, models no code. -/
def extAt (b : Buf) (npart : Nat) : Extra where
  nel20 := wordAt b 64
  nt3d := wordAt b 65
  nel27 := wordAt b 66
  neipb := wordAt b 67
  nel21p := wordAt b 68
  nel15t := wordAt b 69
  soleng := wordAt b 70
  nel20t := wordAt b 71
  nel40p := wordAt b 72
  nel64 := wordAt b 73
  quadr := wordAt b 74
  cubic := wordAt b 75
  tsheng := wordAt b 76
  nbranch := wordAt b 77
  penout := wordAt b 78
  engout := wordAt b 79
  bemeng := wordAt b 80
  kineng := wordAt b 81
  npart := npart

/-- Solves that an error stays an error. -/
macro "mono" : tactic => `(tactic| repeat (first
  | exact mono_rd _
  | exact mono_rdSigned _
  | exact mono_pure _
  | exact mono_skip1 _
  | apply mono_skip))

theorem readRaw_spec {b : Buf} (g : Good b) {s s' : S} {raw : Raw} (h : At b 15 s)
    (e : readRaw s = .ok (raw, s')) (hl : ¬ Dead s') :
    raw = rawAt b ∧ At b 64 s' := by
  unfold readRaw at e
  iterate 8
    obtain ⟨t, h, e⟩ := rd_step g h e hl (fun _ => by mono)
    replace h := h.at
  obtain ⟨t, h, e⟩ := rdSigned_step g h e hl (fun _ => by mono)
  replace h := h.at
  iterate 12
    obtain ⟨t, h, e⟩ := rd_step g h e hl (fun _ => by mono)
    replace h := h.at
  obtain ⟨t, h, e⟩ := rdSigned_step g h e hl (fun _ => by mono)
  replace h := h.at
  obtain ⟨t, h, e⟩ := rd_step g h e hl (fun _ => by mono)
  replace h := h.at
  obtain ⟨t, h, _, e⟩ := skip_step g (small_skip g h (by omega)) h e hl (by mono)
  iterate 10
    obtain ⟨t, h, e⟩ := rd_step g h e hl (fun _ => by mono)
    replace h := h.at
  obtain ⟨t, h, _, e⟩ := skip_step g (small_skip g h (by omega)) h e hl (by mono)
  iterate 2
    obtain ⟨t, h, e⟩ := rd_step g h e hl (fun _ => by mono)
    replace h := h.at
  obtain ⟨t, h, _, e⟩ := skip_step g (small_skip g h (by omega)) h e hl (by mono)
  obtain ⟨t, h, _, e⟩ := skip_step g (small_skip g h (by omega)) h e hl (by mono)
  iterate 4
    obtain ⟨t, h, e⟩ := rd_step g h e hl (fun _ => by mono)
    replace h := h.at
  obtain ⟨t, h, _, e⟩ := skip_step g (small_skip g h (by omega)) h e hl (by mono)
  rw [pure_eq] at e
  cases e
  exact ⟨rfl, h⟩

theorem mono_skipParts : ∀ n, Mono (skipParts n)
  | 0 => mono_pure _
  | n + 1 => mono_skip (mono_skipParts n)

theorem skipParts_spec {b : Buf} (g : Good b) : ∀ (n : Nat) {k : Nat} {s s' : S}, At b k s →
    skipParts n s = .ok ((), s') → ¬ Dead s' → At b (k + 9 * n) s' := by
  intro n
  induction n with
  | zero =>
    intro k s s' h e hl
    unfold skipParts at e
    rw [pure_eq] at e
    cases e
    exact h
  | succ n ih =>
    intro k s s' h e hl
    unfold skipParts at e
    obtain ⟨t, h, _, e⟩ := skip_step g (small_skip g h (by omega)) h e hl (mono_skipParts n)
    have := ih h e hl
    rw [show k + 9 * (n + 1) = k + 9 + 9 * n by omega]
    exact this

/-- Number of words of the blocks for higher order elements.
Part of the specification, models no code. -/
def partWords (x : Extra) : Nat := if x.quadr > 0 ∨ x.cubic > 0 then 1 + 9 * x.npart else 0

theorem readExtra_spec {b : Buf} (g : Good b) {s s' : S} {x : Extra} {extra : Nat} (h : At b 64 s)
    (hx : extra < 2 ^ 59) (e : readExtra extra s = .ok (x, s')) (hl : ¬ Dead s') :
    (extra = 0 → x = {}) ∧
    (0 < extra → 18 ≤ extra ∧ x = extAt b (if x.quadr > 0 ∨ x.cubic > 0 then wordAt b (64 + extra) else 0)) ∧
    At b (64 + extra + partWords x) s' := by
  unfold readExtra at e
  by_cases h0 : extra > 0
  · rw [if_pos h0] at e
    have hm : ∀ (A B : M Extra) (c : Bool), Mono A → Mono B → Mono (if c = true then A else B) := by
      intro A B c hA hB
      cases c
      · exact hB
      · exact hA
    iterate 17
      obtain ⟨t, h, e⟩ := rd_step g h e hl (fun _ => by mono)
      replace h := h.at
    obtain ⟨t, h, e⟩ := rd_step g h e hl (fun _ => mono_skip (hm _ _ _ (by mono) (by mono)))
    replace h := h.at
    by_cases h18 : 18 ≤ extra
    · have hsub : sub64 extra 18 = extra - 18 := by unfold sub64 u64; omega
      rw [hsub] at e
      obtain ⟨t, h, _, e⟩ := skip_step g (small_skip g h (by omega)) h e hl
        (hm _ _ _ (by mono) (by mono))
      have hk : 64 + 1 + 1 + 1 + 1 + 1 + 1 + 1 + 1 + 1 + 1 + 1 + 1 + 1 + 1 + 1 + 1 + 1 + 1 + (extra - 18) =
        64 + extra := by omega
      rw [hk] at h
      by_cases hq : 0 < wordAt b 74 ∨ 0 < wordAt b 75
      · have hq' : (decide (wordAt b 74 > 0) || decide (wordAt b 75 > 0)) = true := by simpa using hq
        rw [if_pos hq'] at e
        obtain ⟨t, h, e⟩ := rd_step g h e hl (fun _ => mono_bind (mono_skipParts _) (fun _ => mono_pure _))
        replace h := h.at
        obtain ⟨_, t, e1, e⟩ := bind_inv e
        rw [pure_eq] at e
        cases e
        have hp := skipParts_spec g _ h e1 hl
        refine ⟨by omega, fun _ => ⟨h18, ?_⟩, ?_⟩
        · simp only [gt_iff_lt, hq, if_true]
          rfl
        · unfold partWords
          simp only [gt_iff_lt, hq, if_true]
          rw [show 64 + extra + (1 + 9 * wordAt b (64 + extra)) = 64 + extra + 1 + 9 * wordAt b (64 + extra) by omega]
          exact hp
      · have hq' : ¬ (decide (wordAt b 74 > 0) || decide (wordAt b 75 > 0)) = true := by simpa using hq
        rw [if_neg hq'] at e
        rw [pure_eq] at e
        cases e
        refine ⟨by omega, fun _ => ⟨h18, ?_⟩, ?_⟩
        · simp only [gt_iff_lt, hq, if_false]
          rfl
        · unfold partWords
          simp only [gt_iff_lt, hq, if_false]
          exact h
    · exfalso
      have hsub : sub64 extra 18 = u64 - (18 - extra) := by unfold sub64 u64; omega
      rw [hsub] at e
      obtain ⟨q, _, e1⟩ := bind_inv e
      have hdead : skip (u64 - (18 - extra)) t = .ok ((), ⟨{ b with err := true }, none⟩) := by
        obtain ⟨h1, q, h2, h3, h4, h5⟩ := h
        unfold skip skipWords
        rw [h1, h2]
        simp only [h5]
        rw [if_pos (by unfold ulongMax u64; omega)]
      rw [bind_ok hdead] at e
      exact hl (hm _ _ _ (by mono) (by mono) _ _ _ ⟨rfl, rfl⟩ e)
  · rw [if_neg h0, pure_eq] at e
    cases e
    have : extra = 0 := by omega
    subst this
    exact ⟨fun _ => rfl, fun h => absurd h (by omega), h⟩

end Dyna.D3
