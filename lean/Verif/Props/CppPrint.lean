import Verif.CppPrint
import Verif.Props.Card
/-!
# C103: texts of values in C++ and Python
-/

namespace Dyna.CppPrint

open Dyna D3

/-- Specification: the characters `( ) , : ; [ ]`, which stand between labels and values. -/
def mark (c : Nat) : Bool := c == 40 || c == 41 || c == 44 || c == 58 || c == 59 || c == 91 || c == 93

/-- Specification: what stands between the marks. -/
def pieces : Bytes → List Bytes
  | [] => [[]]
  | c :: cs =>
    if mark c then [] :: pieces cs
    else match pieces cs with
      | [] => [[c]]
      | p :: ps => (c :: p) :: ps

/-- Specification: the labels and values of a text in the order in which a reader sees them: what stands between the marks, without blanks
in front of it. -/
def words (s : Bytes) : List Bytes := ((pieces s).map fun p => p.dropWhile (· == 32)).filter (· ≠ [])

/-- Specification: the text of a number: not empty, no marks, no blank at its beginning. -/
def Token (v : Bytes) : Prop := v ≠ [] ∧ (∀ c ∈ v, mark c = false) ∧ v.head? ≠ some 32

instance (v : Bytes) : Decidable (Token v) := by unfold Token; infer_instance

theorem pieces_ne (s : Bytes) : pieces s ≠ [] := by
  cases s with
  | nil => simp [pieces]
  | cons c cs =>
    unfold pieces
    split
    · simp
    · split <;> simp

theorem pieces_mark (a r : Bytes) {c : Nat} (h : mark c = true) : pieces (a ++ c :: r) = pieces a ++ pieces r := by
  induction a with
  | nil =>
    simp [pieces, h]
  | cons x xs ih =>
    simp only [List.cons_append, pieces]
    by_cases hx : mark x = true
    · rw [if_pos hx, if_pos hx, ih]
      rfl
    · rw [if_neg hx, if_neg hx, ih]
      cases hp : pieces xs with
      | nil => exact absurd hp (pieces_ne xs)
      | cons p ps => rfl

theorem words_mark (a r : Bytes) {c : Nat} (h : mark c = true) : words (a ++ c :: r) = words a ++ words r := by
  unfold words
  rw [pieces_mark a r h, List.map_append, List.filter_append]

theorem words_blank (r : Bytes) : words (32 :: r) = words r := by
  unfold words
  have h : mark 32 = false := by decide
  rw [pieces]
  rw [h]
  simp only [Bool.false_eq_true, if_false]
  cases hp : pieces r with
  | nil => exact absurd hp (pieces_ne r)
  | cons p ps => rfl

theorem words_nil : words [] = [] := rfl

theorem pieces_token {v : Bytes} (h : ∀ c ∈ v, mark c = false) : pieces v = [v] := by
  induction v with
  | nil => rfl
  | cons c cs ih =>
    rw [pieces, h c (by simp), ih fun d hd => h d (by simp [hd])]
    rfl

theorem words_token {v : Bytes} (h : Token v) : words v = [v] := by
  obtain ⟨h1, h2, h3⟩ := h
  unfold words
  rw [pieces_token h2]
  have : v.dropWhile (· == 32) = v := by
    cases v with
    | nil => rfl
    | cons c cs =>
      rw [List.dropWhile_cons]
      have : ¬ c = 32 := by simpa using h3
      simp [this]
  simp [this, h1]

/-- Auxiliary: a separator with a label behind it. -/
theorem words_label {a r L lab : Bytes} {m : Nat} (hL : L = m :: 32 :: (lab ++ [58, 32])) (hm : mark m = true) (hl : Token lab) :
    words (a ++ L ++ r) = words a ++ lab :: words r := by
  subst hL
  rw [List.append_assoc, List.cons_append, words_mark _ _ hm, List.cons_append, words_blank, List.append_assoc]
  have e : [58, 32] ++ r = 58 :: (32 :: r) := rfl
  rw [e, words_mark _ _ (by decide), words_blank, words_token hl]
  rfl

/-- Auxiliary: a label at the beginning. -/
theorem words_first {r L lab : Bytes} (hL : L = lab ++ [58, 32]) (hl : Token lab) : words (L ++ r) = lab :: words r := by
  subst hL
  rw [List.append_assoc]
  have e : [58, 32] ++ r = 58 :: (32 :: r) := rfl
  rw [e, words_mark _ _ (by decide), words_blank, words_token hl]
  rfl

/-- Auxiliary: a separator without a label. -/
theorem words_sep {a r L : Bytes} {m : Nat} (hL : L = [m, 32]) (hm : mark m = true) : words (a ++ L ++ r) = words a ++ words r := by
  subst hL
  rw [List.append_assoc, List.cons_append, words_mark _ _ hm, List.cons_append, words_blank]
  rfl

theorem words_close (a : Bytes) {L : Bytes} {m : Nat} (hL : L = [m]) (hm : mark m = true) : words (a ++ L) = words a := by
  subst hL
  rw [words_mark _ _ hm, words_nil, List.append_nil]

theorem words_open (a : Bytes) {L : Bytes} {m : Nat} (hL : L = [m]) (hm : mark m = true) : words (L ++ a) = words a := by
  subst hL
  have := words_mark [] a hm
  simpa [words_nil] using this

/-- Specification: the labels and values of a tensor. -/
def tensorWords (fmt : Nat → Bytes) (x y z xy yz xz : Nat) : List Bytes :=
  [bs "X", fmt x, bs "Y", fmt y, bs "Z", fmt z, bs "XY", fmt xy, bs "YZ", fmt yz, bs "XZ", fmt xz]

theorem tensor_words {fmt : Nat → Bytes} (hf : ∀ n, Token (fmt n)) (x y z xy yz xz : Nat) :
    ∃ t, tensorText fmt [x, y, z, xy, yz, xz] = .ok t ∧ words t = tensorWords fmt x y z xy yz xz := by
  refine ⟨_, rfl, ?_⟩
  rw [words_close _ (m := 41) (by decide +kernel) (by decide)]
  rw [words_label (lab := bs "XZ") (m := 58) (by decide +kernel) (by decide) (by decide +kernel)]
  rw [words_label (lab := bs "YZ") (m := 59) (by decide +kernel) (by decide) (by decide +kernel)]
  rw [words_label (lab := bs "XY") (m := 59) (by decide +kernel) (by decide) (by decide +kernel)]
  rw [words_label (lab := bs "Z") (m := 59) (by decide +kernel) (by decide) (by decide +kernel)]
  rw [words_label (lab := bs "Y") (m := 59) (by decide +kernel) (by decide) (by decide +kernel)]
  have e : bs "(X: " = [40] ++ (bs "X" ++ [58, 32]) := by decide +kernel
  rw [e, show [40] ++ (bs "X" ++ [58, 32]) ++ fmt x = [40] ++ (bs "X" ++ [58, 32] ++ fmt x) by simp,
    words_open _ (m := 40) rfl (by decide), words_first rfl (by decide +kernel)]
  simp only [words_token (hf _)]
  rfl

/-- Specification: the labels and values of a list of six values. -/
def tensorOf (fmt : Nat → Bytes) (l : List Nat) : List Bytes :=
  (List.zipWith (fun a b => [a, b]) [bs "X", bs "Y", bs "Z", bs "XY", bs "YZ", bs "XZ"] (l.map fmt)).flatten

theorem tensor_of {fmt : Nat → Bytes} (hf : ∀ n, Token (fmt n)) {l : List Nat} (hl : l.length = 6) :
    ∃ t, tensorText fmt l = .ok t ∧ words t = tensorOf fmt l := by
  match l, hl with
  | [x, y, z, xy, yz, xz], _ => exact tensor_words hf x y z xy yz xz

/-- Specification: the labels and values of a surface. -/
def surfaceOf (fmt : Nat → Bytes) (s : Surface) : List Bytes :=
  bs "Stress" :: tensorOf fmt s.sigma ++ bs "Effective Plastic Strain" :: s.plastic.map fmt

/-- Specification: a surface with all its values. -/
def SurfaceOk (s : Surface) : Prop := s.sigma.length = 6 ∧ s.plastic.length = 1

theorem surface_words {fmt : Nat → Bytes} (hf : ∀ n, Token (fmt n)) {s : Surface} (h : SurfaceOk s) :
    ∃ t, surfaceText fmt s = .ok t ∧ words t = surfaceOf fmt s := by
  obtain ⟨sg, pl, hi⟩ := s
  obtain ⟨h1, h2⟩ := h
  obtain ⟨p, rfl⟩ := List.length_eq_one_iff.mp h2
  obtain ⟨t, e1, e2⟩ := tensor_of hf h1
  unfold surfaceText
  dsimp only
  rw [e1]
  refine ⟨_, rfl, ?_⟩
  rw [words_label (lab := bs "Effective Plastic Strain") (m := 59) (by decide +kernel) (by decide) (by decide +kernel)]
  rw [words_first (lab := bs "Stress") (by decide +kernel) (by decide +kernel), e2, words_token (hf p)]
  rfl

/-- C103, solids: the text of a solid consists of the labels with the values behind them. -/
theorem c103_solid {fmt : Nat → Bytes} (hf : ∀ n, Token (fmt n)) {s : Solid} (h1 : s.sigma.length = 6) (h2 : s.plastic.length = 1)
    (h3 : s.epsilon.length = 6) :
    ∃ t, solidText fmt s = .ok t ∧ words t = bs "Stress" :: tensorOf fmt s.sigma ++
      bs "Effective Plastic Strain" :: s.plastic.map fmt ++ bs "Strain" :: tensorOf fmt s.epsilon := by
  obtain ⟨sg, pl, ep⟩ := s
  obtain ⟨p, rfl⟩ := List.length_eq_one_iff.mp h2
  obtain ⟨t, e1, e2⟩ := tensor_of hf h1
  obtain ⟨u, e3, e4⟩ := tensor_of hf h3
  unfold solidText
  dsimp only at *
  rw [e1, e3]
  refine ⟨_, rfl, ?_⟩
  rw [words_label (lab := bs "Strain") (m := 59) (by decide +kernel) (by decide) (by decide +kernel)]
  rw [words_label (lab := bs "Effective Plastic Strain") (m := 59) (by decide +kernel) (by decide) (by decide +kernel)]
  rw [words_first (lab := bs "Stress") (by decide +kernel) (by decide +kernel), e2, e4, words_token (hf p)]
  simp

/-- C103, surfaces (integration points of shells). -/
theorem c103_surface {fmt : Nat → Bytes} (hf : ∀ n, Token (fmt n)) {s : Surface} (h : SurfaceOk s) :
    ∃ t, surfaceText fmt s = .ok t ∧ words t =
      bs "Stress" :: tensorOf fmt s.sigma ++ bs "Effective Plastic Strain" :: s.plastic.map fmt := surface_words hf h

/-- Specification: the labels and values that thick shells and shells have in common. -/
def shellWords (fmt : Nat → Bytes) (mid inner outer : Surface) (strains : List Nat) : List Bytes :=
  bs "Mid" :: surfaceOf fmt mid ++ bs "Inner" :: surfaceOf fmt inner ++ bs "Outer" :: surfaceOf fmt outer ++
    bs "Inner Strain" :: tensorOf fmt (strains.take 6) ++ bs "Outer Strain" :: tensorOf fmt (strains.drop 6)

/-- C103, thick shells: if the three surfaces and the strains have been written. -/
theorem c103_thick_shell_partial {fmt : Nat → Bytes} (hf : ∀ n, Token (fmt n)) {s : Shell} {mid inner outer : Surface}
    {strains : List Nat} (hm : s.mid = some mid) (hi : s.inner = some inner) (ho : s.outer = some outer)
    (hs : s.strains = some strains) (h1 : SurfaceOk mid) (h2 : SurfaceOk inner) (h3 : SurfaceOk outer) (h4 : strains.length = 12) :
    ∃ t, thickText fmt s = .ok t ∧ words t = shellWords fmt mid inner outer strains := by
  obtain ⟨a, a1, a2⟩ := surface_words hf h1
  obtain ⟨b, b1, b2⟩ := surface_words hf h2
  obtain ⟨c, c1, c2⟩ := surface_words hf h3
  obtain ⟨d, d1, d2⟩ := tensor_of hf (l := strains.take 6) (by simp; omega)
  obtain ⟨e, e1, e2⟩ := tensor_of hf (l := strains.drop 6) (by simp; omega)
  unfold thickText
  rw [hm, hi, ho, hs]
  simp only [written, strainsOf, a1, b1, c1, d1, e1, Res.bind_ok]
  refine ⟨_, rfl, ?_⟩
  rw [words_label (lab := bs "Outer Strain") (m := 59) (by decide +kernel) (by decide) (by decide +kernel)]
  rw [words_label (lab := bs "Inner Strain") (m := 59) (by decide +kernel) (by decide) (by decide +kernel)]
  rw [words_label (lab := bs "Outer") (m := 59) (by decide +kernel) (by decide) (by decide +kernel)]
  rw [words_label (lab := bs "Inner") (m := 59) (by decide +kernel) (by decide) (by decide +kernel)]
  rw [words_first (lab := bs "Mid") (by decide +kernel) (by decide +kernel), a2, b2, c2, d2, e2]
  simp [shellWords]

theorem words_list {fmt : Nat → Bytes} (hf : ∀ n, Token (fmt n)) {sep : Bytes} {m : Nat} (hs : sep = [m, 32]) (hm : mark m = true) :
    ∀ l : List Nat, words (listText fmt sep l) = l.map fmt
  | [] => rfl
  | [x] => by
    simp [listText, words_token (hf x)]
  | x :: y :: ys => by
    rw [listText, words_sep hs hm, words_token (hf x), words_list hf hs hm (y :: ys)]
    rfl

theorem words_group {fmt : Nat → Bytes} (hf : ∀ n, Token (fmt n)) {sep : String} {m : Nat} (hs : bs sep = [m, 32])
    (hm : mark m = true) (l : List Nat) : words (group fmt sep l) = l.map fmt := by
  unfold group
  rw [words_close _ (m := 41) (by decide +kernel) (by decide), words_open _ (m := 40) (by decide +kernel) (by decide), words_list hf hs hm]

/-- C103, vectors and values at the integration points: the values in parentheses, in their order. -/
theorem c103_group {fmt : Nat → Bytes} (hf : ∀ n, Token (fmt n)) (l : List Nat) :
    words (group fmt "; " l) = l.map fmt ∧ words (group fmt ", " l) = l.map fmt :=
  ⟨words_group hf (m := 59) (by decide +kernel) (by decide) l, words_group hf (m := 44) (by decide +kernel) (by decide) l⟩

/-- Specification: the labels and values that only shells have; the numbers are the positions in the list of twelve values. -/
def extraWords (v : Nat → Bytes) : List Bytes :=
  [bs "Bending Moment", v 0, v 1, v 2, bs "Shear Resultant", v 3, v 4, bs "Normal Resultant", v 5, v 6, v 7, bs "Thickness", v 8,
    bs "Element Dependent Variables", v 9, v 10, bs "Internal Energy", v 11]

/-- C103, shells: if the three surfaces and the strains have been written. -/
theorem c103_shell_partial {fmt : Nat → Bytes} (hf : ∀ n, Token (fmt n)) {s : Shell} {mid inner outer : Surface}
    {strains : List Nat} (hm : s.mid = some mid) (hi : s.inner = some inner) (ho : s.outer = some outer)
    (hs : s.strains = some strains) (h1 : SurfaceOk mid) (h2 : SurfaceOk inner) (h3 : SurfaceOk outer) (h4 : strains.length = 12)
    (h5 : s.extra.length = 12) :
    ∃ t, shellText fmt s = .ok t ∧
      words t = shellWords fmt mid inner outer strains ++ extraWords fun i => fmt (s.extra.getD i 0) := by
  obtain ⟨a, a1, a2⟩ := c103_thick_shell_partial hf hm hi ho hs h1 h2 h3 h4
  unfold shellText
  rw [a1]
  generalize s.extra = l at h5
  match l, h5 with
  | [x1, x2, x3, x4, x5, x6, x7, x8, x9, x10, x11, x12], _ =>
    refine ⟨_, rfl, ?_⟩
    have e : ∀ r : Bytes, a ++ (bs "; Bending Moment: " ++ r) = a ++ bs "; Bending Moment: " ++ r := fun r => by simp
    simp only [List.append_assoc]
    rw [e, words_label (lab := bs "Bending Moment") (m := 59) (by decide +kernel) (by decide) (by decide +kernel)]
    simp only [← List.append_assoc]
    rw [words_label (lab := bs "Internal Energy") (m := 59) (by decide +kernel) (by decide) (by decide +kernel)]
    rw [words_label (lab := bs "Element Dependent Variables") (m := 59) (by decide +kernel) (by decide) (by decide +kernel)]
    rw [words_label (lab := bs "Thickness") (m := 59) (by decide +kernel) (by decide) (by decide +kernel)]
    rw [words_label (lab := bs "Normal Resultant") (m := 59) (by decide +kernel) (by decide) (by decide +kernel)]
    rw [words_label (lab := bs "Shear Resultant") (m := 59) (by decide +kernel) (by decide) (by decide +kernel)]
    rw [words_group hf (m := 59) (by decide +kernel) (by decide), words_group hf (m := 59) (by decide +kernel) (by decide),
      words_group hf (m := 59) (by decide +kernel) (by decide), words_group hf (m := 44) (by decide +kernel) (by decide),
      words_token (hf x9), words_token (hf x12), a2]
    rfl

/-- C103, beams. -/
theorem c103_beam {fmt : Nat → Bytes} (hf : ∀ n, Token (fmt n)) {b : Beam} (h : b.resultants.length = 6) :
    ∃ t, beamText fmt b = .ok t ∧ words t = (List.zipWith (fun a v => [a, v])
      [bs "Axial Force", bs "S Shear Resultant", bs "T Shear Resultant", bs "S Bending Moment", bs "T Bending Moment",
        bs "Torsional Resultant"] (b.resultants.map fmt)).flatten := by
  unfold beamText
  generalize b.resultants = l at h
  match l, h with
  | [x1, x2, x3, x4, x5, x6], _ =>
    refine ⟨_, rfl, ?_⟩
    rw [words_label (lab := bs "Torsional Resultant") (m := 59) (by decide +kernel) (by decide) (by decide +kernel)]
    rw [words_label (lab := bs "T Bending Moment") (m := 59) (by decide +kernel) (by decide) (by decide +kernel)]
    rw [words_label (lab := bs "S Bending Moment") (m := 59) (by decide +kernel) (by decide) (by decide +kernel)]
    rw [words_label (lab := bs "T Shear Resultant") (m := 59) (by decide +kernel) (by decide) (by decide +kernel)]
    rw [words_label (lab := bs "S Shear Resultant") (m := 59) (by decide +kernel) (by decide) (by decide +kernel)]
    rw [words_first (lab := bs "Axial Force") (by decide +kernel) (by decide +kernel)]
    simp only [words_token (hf _)]
    rfl

theorem num_eq (n : Nat) : num n = (Nat.toDigits 10 n).map Char.toNat := by
  unfold num
  exact Card.bs_toString n

theorem token_num (n : Nat) : Token (num n) := by
  rw [num_eq]
  have hd := (Card.toDigits_facts n).1
  refine ⟨by simp [Nat.toDigits_ne_nil], fun c hc => ?_, fun h => ?_⟩
  · have := hd c hc
    unfold Card.isDigit at this
    simp only [Bool.and_eq_true, decide_eq_true_eq] at this
    unfold mark
    simp only [Bool.or_eq_false_iff, beq_eq_false_iff_ne]
    refine ⟨⟨⟨⟨⟨⟨?_, ?_⟩, ?_⟩, ?_⟩, ?_⟩, ?_⟩, ?_⟩ <;> omega
  · have := hd 32 (List.mem_of_head? h)
    simp [Card.isDigit] at this

/-- C103, numbers: different indices and ids have different texts. -/
theorem c103_num {a b : Nat} (h : num a = num b) : a = b := by
  rw [num_eq, num_eq] at h
  rw [← (Card.toDigits_facts a).2, ← (Card.toDigits_facts b).2, h]

/-- C103, connectivity of solids, thick shells and shells: the indices of the nodes and of the material, in this order. -/
theorem c103_con (c : Con) : words (conText c) = (c.nodes ++ [c.material]).map num := by
  unfold conText
  rw [words_close _ (m := 41) (by decide +kernel) (by decide)]
  rw [words_sep (m := 59) (by decide +kernel) (by decide), words_open _ (m := 40) (by decide +kernel) (by decide),
    words_list token_num (m := 44) (by decide +kernel) (by decide), words_token (token_num _)]
  simp

/-- C103, connectivity of beams: two nodes, the node for the orientation, the material. -/
theorem c103_beam_con {c : Con} (h : c.nodes.length = 3) :
    ∃ t, beamConText c = .ok t ∧ words t = (c.nodes ++ [c.material]).map num := by
  unfold beamConText
  generalize c.nodes = l at h
  match l, h with
  | [x1, x2, x3], _ =>
    refine ⟨_, rfl, ?_⟩
    rw [words_close _ (m := 41) (by decide +kernel) (by decide)]
    rw [words_sep (m := 59) (by decide +kernel) (by decide), words_sep (m := 59) (by decide +kernel) (by decide),
      words_sep (m := 44) (by decide +kernel) (by decide), words_open _ (m := 40) (by decide +kernel) (by decide)]
    simp only [words_token (token_num _)]
    rfl

/-- C103, arrays: the texts of the elements with `", "` between them, in brackets. -/
theorem c103_array {α : Type} (fmt : α → Bytes) (l : List α) :
    arrayText fmt l = bs "[" ++ ((l.map fmt).intersperse (bs ", ")).flatten ++ bs "]" := by
  have key : ∀ (l : List α) (i : Nat), arrayLoop fmt (i + l.length) i l = ((l.map fmt).intersperse (bs ", ")).flatten := by
    intro l
    induction l with
    | nil => intro i; rfl
    | cons x xs ih =>
      intro i
      unfold arrayLoop
      have hi := ih (i + 1)
      rw [show i + 1 + xs.length = i + (x :: xs).length by simp; omega] at hi
      rw [hi]
      cases xs with
      | nil => simp
      | cons y ys => simp
  unfold arrayText
  have := key l 0
  rw [Nat.zero_add] at this
  rw [this]

/-- C103, arrays of numbers: the values in their order. -/
theorem c103_array_words {α : Type} {fmt : α → Bytes} (hf : ∀ n, Token (fmt n)) (l : List α) : words (arrayText fmt l) = l.map fmt := by
  rw [c103_array, words_close _ (m := 93) (by decide +kernel) (by decide), words_open _ (m := 91) (by decide +kernel) (by decide)]
  induction l with
  | nil => rfl
  | cons x xs ih =>
    cases xs with
    | nil => simp [words_token (hf x)]
    | cons y ys =>
      have e : ((List.map fmt (x :: y :: ys)).intersperse (bs ", ")).flatten =
          fmt x ++ bs ", " ++ ((List.map fmt (y :: ys)).intersperse (bs ", ")).flatten := by simp
      rw [e, words_sep (m := 44) (by decide +kernel) (by decide), words_token (hf x), ih]
      rfl

/-- C103, arrays of 8 bit numbers: different arrays have different texts. -/
theorem c103_bytes {a b : List Byte} (h : arrayText quoted a = arrayText quoted b) : a = b := by
  rw [c103_array, c103_array] at h
  have h2 := List.append_cancel_left (List.append_cancel_right h)
  clear h
  rename _ = _ => h
  have q : ∀ c, quoted c = [39, c, 39] := fun c => by
    have e : bs "'" = [39] := by decide +kernel
    simp [quoted, e]
  have s : bs ", " = [44, 32] := by decide +kernel
  rw [s] at h
  induction a generalizing b with
  | nil =>
    cases b with
    | nil => rfl
    | cons y ys =>
      cases ys <;> simp [q] at h
  | cons x xs ih =>
    cases b with
    | nil => cases xs <;> simp [q] at h
    | cons y ys =>
      cases xs with
      | nil =>
        cases ys with
        | nil => simpa [q] using h
        | cons z zs => simp [q] at h
      | cons x' xs' =>
        cases ys with
        | nil => simp [q] at h
        | cons z zs =>
          simp only [List.map_cons, List.intersperse_cons_cons, List.flatten_cons, q, List.cons_append, List.nil_append,
            List.cons.injEq, true_and] at h
          have := ih (b := z :: zs) (by
            simp only [List.map_cons, q]
            exact h.2)
          rw [h.1, this]

theorem ok_of_bind {α β : Type} {x : Res α} {f : α → Res β} {t : β} (h : (x >>= f) = .ok t) : ∃ a, x = .ok a ∧ f a = .ok t := by
  cases x with
  | ok a => exact ⟨a, rfl, h⟩
  | err | ub | abort => exact nomatch h

/-- A shell (or thick shell) with less than three integration points, or whose strains are not in the file: printing it reads members that
have never been written. -/
theorem c103_unwritten (fmt : Nat → Bytes) {s : Shell} (h : s.mid = none ∨ s.inner = none ∨ s.outer = none ∨ s.strains = none) :
    (∀ t, thickText fmt s ≠ .ok t) ∧ ∀ t, shellText fmt s ≠ .ok t := by
  have key : ∀ t, thickText fmt s ≠ .ok t := by
    intro t ht
    unfold thickText at ht
    obtain ⟨m, hm, ht⟩ := ok_of_bind ht
    obtain ⟨i, hi, ht⟩ := ok_of_bind ht
    obtain ⟨o, ho, ht⟩ := ok_of_bind ht
    obtain ⟨e, he, ht⟩ := ok_of_bind ht
    rcases h with h | h | h | h
    · rw [h] at hm
      exact nomatch hm
    · rw [h] at hi
      exact nomatch hi
    · rw [h] at ho
      exact nomatch ho
    · rw [h] at he
      exact nomatch he
  refine ⟨key, fun t ht => ?_⟩
  unfold shellText at ht
  cases hk : thickText fmt s with
  | ok u => exact key u hk
  | err | ub | abort => simp [hk] at ht

/-- The text of a solid, and of an array. -/
theorem c103_sample : solidText num ⟨[1, 2, 3, 4, 5, 6], [7], [8, 9, 10, 11, 12, 13]⟩ =
      .ok (bs "Stress: (X: 1; Y: 2; Z: 3; XY: 4; YZ: 5: XZ: 6); Effective Plastic Strain: 7; Strain: (X: 8; Y: 9; Z: 10; XY: 11; YZ: 12: XZ: 13)") ∧
    arrayText num [10, 20, 30] = bs "[10, 20, 30]" ∧ arrayText quoted (bs "ab") = bs "['a', 'b']" ∧
    conText ⟨[1, 2, 3, 4], 9⟩ = bs "(1, 2, 3, 4; 9)" ∧ (∀ n, Token (num n)) :=
  ⟨by decide +kernel, by decide +kernel, by decide +kernel, by decide +kernel, token_num⟩

end Dyna.CppPrint
