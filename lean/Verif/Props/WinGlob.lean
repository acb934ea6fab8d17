import Verif.WinGlob
/-!
# C101: names of files found by a pattern on Windows
-/

namespace Dyna.WinGlob

open Dyna

/-- Specification: separators of paths on Windows. -/
def Sep (c : Byte) : Bool := c == 92 || c == 47

/-- Specification: the folder in which a pattern looks for files: everything up to and including the last separator (a separator that is
the last character of the pattern does not count), nothing if there is no separator. -/
def folder (pattern : Bytes) : Bytes := (pattern.dropLast.reverse.dropWhile fun c => !Sep c).reverse

/-- Specification: the text a block holds, up to its NUL; all cells of it have been written. -/
def texts (blocks : List (List (Option Byte))) : List (Option Bytes) := blocks.map readCStr

/-- Auxiliary: the loop, started at the end of `a`. -/
theorem parentScan_spec (a rest : Bytes) :
    parentScan (a ++ rest) a.length =
      .ok (if (a.reverse.dropWhile fun c => !Sep c) = [] then none else some (a.reverse.dropWhile fun c => !Sep c).length) := by
  generalize hn : a.length = n
  induction n generalizing a rest with
  | zero =>
    have : a = [] := List.length_eq_zero_iff.mp hn
    subst this
    simp [parentScan]
  | succ n ih =>
    have hne : a ≠ [] := by intro h; subst h; simp at hn
    obtain ⟨b, c, rfl⟩ : ∃ b c, a = b ++ [c] := ⟨a.dropLast, a.getLast hne, (List.dropLast_concat_getLast hne).symm⟩
    have hb : b.length = n := by simpa using hn
    have hget : ((b ++ [c] ++ rest) ++ [0])[n]? = some c := by
      rw [← hb]
      simp
    unfold parentScan
    rw [hget]
    simp only [List.reverse_append, List.reverse_cons, List.reverse_nil, List.nil_append, List.cons_append]
    by_cases hc : c = 92 ∨ c = 47
    · have hs : (!Sep c) = false := by
        rcases hc with h | h <;> simp [Sep, h]
      rw [if_pos hc, List.dropWhile_cons, hs]
      simp [hb]
    · have hs : (!Sep c) = true := by
        simp only [not_or] at hc
        simp [Sep, hc.1, hc.2]
      rw [if_neg hc, List.dropWhile_cons, hs]
      have := ih b (c :: rest) hb
      simpa using this

/-- Auxiliary: where the loop starts. -/
theorem parentLen_spec {pattern : Bytes} (h0 : pattern ≠ []) (h : pattern.length < u64) :
    parentLen pattern = .ok (if folder pattern = [] then none else some (folder pattern).length) := by
  have hlen : (sub64 pattern.length 2 + 1) % u64 = pattern.dropLast.length := by
    have hp : 0 < pattern.length := List.length_pos_iff.mpr h0
    rw [List.length_dropLast]
    unfold sub64 u64 at *
    omega
  have hsplit : pattern.dropLast ++ [pattern.getLast h0] = pattern := List.dropLast_concat_getLast h0
  have := parentScan_spec pattern.dropLast [pattern.getLast h0]
  unfold parentLen
  rw [hlen]
  rw [hsplit] at this
  rw [this]
  simp [folder]

/-- Auxiliary: the loop reads in front of or behind the text of an empty pattern. -/
theorem parentLen_nil : parentLen [] = .ub := by
  have : ∀ i, 1 ≤ i → parentScan [] (i + 1) = .ub := by
    intro i hi
    unfold parentScan
    rw [List.getElem?_eq_none (by simpa using hi)]
  unfold parentLen
  have e : (sub64 ([] : Bytes).length 2 + 1) % u64 = (u64 - 2) + 1 := by
    unfold sub64 u64
    rfl
  rw [e]
  exact this _ (by unfold u64; omega)

/-- Auxiliary: the block of a text, exactly as large as the text with its NUL. -/
def blockOf (t : Bytes) : List (Option Byte) := (t ++ [0]).map some

theorem readCStr_block {t : Bytes} (h : 0 ∉ t) (rest : List (Option Byte)) : readCStr (t.map some ++ some 0 :: rest) = some t := by
  induction t with
  | nil => simp [readCStr]
  | cons c cs ih =>
    simp only [List.mem_cons, not_or] at h
    simp only [List.map_cons, List.cons_append, readCStr, if_neg (Ne.symm h.1), ih h.2, Option.map_some]

theorem nameBlock_spec (t : Bytes) : nameBlock t = .ok (blockOf t) := by
  unfold nameBlock blockOf
  have := writeAt_mid [] (List.replicate (t.length + 1) none) (t ++ [0]) (by simp)
  simpa using this

theorem mapM_some (xs : Bytes) : (xs.map some).mapM id = some xs := by
  induction xs with
  | nil => rfl
  | cons x xs ih => simp [List.mapM_cons, ih]

/-- Auxiliary: putting the folder in front of one name. -/
theorem addParent_ok {pattern p t : Bytes} {s : Bytes} (hp : pattern = p ++ s) (h0 : 0 ∉ t) (hlen : t.length ≤ p.length) :
    addParent pattern p.length (blockOf t) = .ok (blockOf (p ++ t)) := by
  subst hp
  have hl : blockLen (blockOf t) = .ok t.length := by
    have := readCStr_block h0 []
    unfold blockLen blockOf
    simp only [List.map_append, List.map_cons, List.map_nil]
    rw [this]
  have hbuf : reallocBuf (some (blockOf t)) (p.length + t.length + 1) = t.map some ++ (some 0 :: List.replicate p.length none) := by
    unfold reallocBuf blockOf
    simp only [Option.getD_some]
    rw [List.take_of_length_le (by simp +arith)]
    simp only [List.length_map, List.length_append, List.length_singleton, List.map_append, List.map_cons, List.map_nil,
      List.append_assoc, List.singleton_append]
    rw [show p.length + t.length + 1 - (t.length + 1) = p.length by omega]
  unfold addParent
  rw [hl]
  simp only [Res.bind_ok]
  rw [hbuf]
  generalize hB : t.map some ++ (some 0 :: List.replicate p.length none) = B
  have hBlen : B.length = p.length + t.length + 1 := by rw [← hB]; simp +arith
  have hc : copyWithin B p.length t.length = .ok (B.take p.length ++ t.map some ++ B.drop (p.length + t.length)) := by
    unfold copyWithin
    rw [if_neg (by omega), if_neg (by omega)]
    have ht : B.take t.length = t.map some := by rw [← hB]; simp
    rw [ht, mapM_some]
    simp only
    unfold writeAt
    rw [if_pos (by omega)]
  rw [hc]
  simp only [Res.bind_ok]
  have hlast : ∃ x, B.drop (p.length + t.length) = [x] := by
    have : (B.drop (p.length + t.length)).length = 1 := by simp; omega
    exact List.length_eq_one_iff.mp this
  obtain ⟨x, hx⟩ := hlast
  rw [hx, List.take_left]
  have h1 := writeAt_mid [] (B.take p.length ++ t.map some ++ [x]) p (by simp; omega)
  simp only [List.nil_append, List.length_nil] at h1
  rw [h1]
  simp only [Res.bind_ok]
  have hd : (B.take p.length ++ t.map some ++ [x]).drop p.length = t.map some ++ [x] := by
    rw [List.append_assoc, List.drop_left' (by simp; omega)]
  rw [hd]
  have h2 := writeAt_mid (p.map some ++ t.map some) [x] [0] (by simp)
  rw [List.length_append, List.length_map, List.length_map, List.append_assoc] at h2
  rw [h2]
  simp [blockOf]

/-- Auxiliary: a name that is longer than the folder. -/
theorem addParent_ub {pattern t : Bytes} {p : Nat} (h0 : 0 ∉ t) (hlen : p < t.length) : addParent pattern p (blockOf t) = .ub := by
  have hl : blockLen (blockOf t) = .ok t.length := by
    have := readCStr_block h0 []
    unfold blockLen blockOf
    simp only [List.map_append, List.map_cons, List.map_nil]
    rw [this]
  unfold addParent
  rw [hl]
  simp only [Res.bind_ok]
  unfold copyWithin
  rw [if_pos (by omega)]
  rfl

theorem eachBlock_ok {α : Type} {f : α → Res (List (Option Byte))} {g : α → List (Option Byte)} :
    ∀ {xs : List α}, (∀ x ∈ xs, f x = .ok (g x)) → eachBlock f xs = .ok (xs.map g)
  | [], _ => rfl
  | x :: xs, h => by
    unfold eachBlock
    rw [h x (by simp), eachBlock_ok (g := g) fun y hy => h y (by simp [hy])]
    rfl

theorem eachBlock_ub {α : Type} {f : α → Res (List (Option Byte))} {g : α → List (Option Byte)} :
    ∀ {xs : List α}, (∀ x ∈ xs, f x = .ok (g x) ∨ f x = .ub) → (∃ x ∈ xs, f x = .ub) → eachBlock f xs = .ub
  | [], _, h => by simp at h
  | x :: xs, h, ⟨y, hy, hu⟩ => by
    unfold eachBlock
    rcases h x (by simp) with hx | hx
    · have : ∃ y ∈ xs, f y = .ub := by
        rcases List.mem_cons.mp hy with rfl | hm
        · rw [hx] at hu
          simp at hu
        · exact ⟨y, hm, hu⟩
      rw [hx, eachBlock_ub (g := g) (fun z hz => h z (by simp [hz])) this]
      rfl
    · rw [hx]
      rfl

theorem folder_prefix (pattern : Bytes) : ∃ s, pattern = folder pattern ++ s := by
  by_cases h0 : pattern = []
  · subst h0
    exact ⟨[], by simp [folder]⟩
  · refine ⟨(pattern.dropLast.reverse.takeWhile fun c => !Sep c).reverse ++ [pattern.getLast h0], ?_⟩
    have h1 : folder pattern ++ (pattern.dropLast.reverse.takeWhile fun c => !Sep c).reverse = pattern.dropLast := by
      unfold folder
      rw [← List.reverse_append, List.takeWhile_append_dropWhile, List.reverse_reverse]
    rw [← List.append_assoc, h1, List.dropLast_concat_getLast h0]

theorem glob_blocks (pattern : Bytes) (found : List Bytes) :
    glob pattern found = (parentLen pattern >>= prefixAll pattern (found.map blockOf)) := by
  unfold glob
  rw [eachBlock_ok (g := blockOf) fun x _ => nameBlock_spec x, Res.bind_ok]

theorem glob_ok {pattern : Bytes} {found : List Bytes} (h0 : pattern ≠ []) (h : pattern.length < u64)
    (hz : ∀ n ∈ found, 0 ∉ n) (hfit : folder pattern = [] ∨ ∀ n ∈ found, n.length ≤ (folder pattern).length) :
    glob pattern found = .ok (found.map fun n => blockOf (folder pattern ++ n)) := by
  rw [glob_blocks, parentLen_spec h0 h]
  by_cases hf : folder pattern = []
  · simp [hf, prefixAll]
  · rw [if_neg hf]
    simp only [Res.bind_ok, prefixAll]
    have hall := hfit.resolve_left hf
    obtain ⟨s, hs⟩ := folder_prefix pattern
    have : ∀ l : List Bytes, (∀ n ∈ l, 0 ∉ n ∧ n.length ≤ (folder pattern).length) →
        eachBlock (addParent pattern (folder pattern).length) (l.map blockOf) =
          .ok (l.map fun n => blockOf (folder pattern ++ n)) := by
      intro l
      induction l with
      | nil => intro _; rfl
      | cons n l ih =>
        intro hl
        simp only [List.map_cons]
        unfold eachBlock
        rw [addParent_ok hs (hl n (by simp)).1 (hl n (by simp)).2, ih fun m hm => hl m (by simp [hm])]
        rfl
    exact this found fun n hn => ⟨hz n hn, hall n hn⟩

/-- **C101.** Finding files on Windows: as long as no name is longer than the folder of the pattern (or the pattern has no folder) the call
is free of undefined behaviour, there is one name for each file that has been found, in the order in which they have been found, and every
name is the name of the file with the folder of the pattern in front of it. Every block is exactly as large as its text with the NUL.
Missing: names that are longer than the folder, see `c101_longer_than_folder`, and the empty pattern, see `c101_empty_pattern`. -/
theorem c101_names_partial {pattern : Bytes} {found : List Bytes} (h0 : pattern ≠ []) (h : pattern.length < 2 ^ 64)
    (hz : ∀ n ∈ found, 0 ∉ n) (hp : 0 ∉ pattern)
    (hfit : folder pattern = [] ∨ ∀ n ∈ found, n.length ≤ (folder pattern).length) :
    ∃ blocks, glob pattern found = .ok blocks ∧ texts blocks = found.map (fun n => some (folder pattern ++ n)) ∧
      blocks.map List.length = found.map (fun n => (folder pattern).length + n.length + 1) := by
  refine ⟨_, glob_ok h0 (by unfold u64; omega) hz hfit, ?_, ?_⟩
  · unfold texts
    rw [List.map_map]
    apply List.map_congr_left
    intro n hn
    have hnz : 0 ∉ folder pattern ++ n := by
      intro hm
      rcases List.mem_append.mp hm with hm | hm
      · obtain ⟨s, hs⟩ := folder_prefix pattern
        exact hp (by rw [hs]; exact List.mem_append_left _ hm)
      · exact hz n hn hm
    have := readCStr_block hnz []
    simpa [blockOf] using this
  · rw [List.map_map]
    apply List.map_congr_left
    intro n _
    simp [blockOf, Nat.add_assoc]

/-- A pattern with a folder and a file whose name is longer than the folder: the name is moved with `memcpy` although the old and the new
place overlap, which is undefined. -/
theorem c101_longer_than_folder {pattern : Bytes} {found : List Bytes} (h : pattern.length < 2 ^ 64) (hz : ∀ n ∈ found, 0 ∉ n)
    (hf : folder pattern ≠ []) (hlong : ∃ n ∈ found, (folder pattern).length < n.length) : glob pattern found = .ub := by
  have h0 : pattern ≠ [] := by
    intro h
    subst h
    simp [folder] at hf
  rw [glob_blocks, parentLen_spec h0 (by unfold u64; omega), if_neg hf]
  simp only [Res.bind_ok, prefixAll]
  obtain ⟨s, hs⟩ := folder_prefix pattern
  have : ∀ l : List Bytes, (∀ n ∈ l, 0 ∉ n) → (∃ n ∈ l, (folder pattern).length < n.length) →
      eachBlock (addParent pattern (folder pattern).length) (l.map blockOf) = .ub := by
    intro l
    induction l with
    | nil => intro _ h; simp at h
    | cons n l ih =>
      intro hl ⟨m, hm, hlt⟩
      simp only [List.map_cons]
      unfold eachBlock
      by_cases hn : (folder pattern).length < n.length
      · rw [addParent_ub (hl n (by simp)) hn]
        rfl
      · rw [addParent_ok hs (hl n (by simp)) (by omega)]
        have : ∃ k ∈ l, (folder pattern).length < k.length := by
          rcases List.mem_cons.mp hm with rfl | h1
          · exact absurd hlt hn
          · exact ⟨m, h1, hlt⟩
        rw [ih (fun k hk => hl k (by simp [hk])) this]
        rfl
  exact this found hz hlong

/-- An empty pattern: the loop for the folder starts far outside of the text. -/
theorem c101_empty_pattern (found : List Bytes) : glob [] found = .ub := by
  rw [glob_blocks, parentLen_nil]
  rfl

/-- `run\sub/bin*`: the folder ends with the second separator. -/
example : folder (bs "run\\sub/bin*") = bs "run\\sub/" := by decide +kernel

/-- A pattern without a folder, and one whose only separator is at the end. -/
example : folder (bs "binout*") = [] ∧ folder (bs "a/") = [] := by decide +kernel

/-- The hypotheses are met by two files in a folder with a longer name. -/
theorem c101_sample : ∃ blocks, glob (bs "results\\run1/bin*") [bs "binout0000", bs "binout0001"] = .ok blocks ∧
    texts blocks = [some (bs "results\\run1/binout0000"), some (bs "results\\run1/binout0001")] := by
  obtain ⟨b, h1, h2, -⟩ := c101_names_partial (pattern := bs "results\\run1/bin*") (found := [bs "binout0000", bs "binout0001"])
    (by decide +kernel) (by decide +kernel) (by decide +kernel) (by decide +kernel) (by decide +kernel)
  refine ⟨b, h1, ?_⟩
  rw [h2]
  decide +kernel

/-- The usual names in the usual folder: `d/binout*` and `binout0000`. -/
example : glob (bs "d/binout*") [bs "binout0000"] = .ub :=
  c101_longer_than_folder (by decide +kernel) (by decide +kernel) (by decide +kernel) ⟨bs "binout0000", by simp, by decide +kernel⟩

end Dyna.WinGlob
