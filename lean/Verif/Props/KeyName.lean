import Verif.KeyName
/-!
# C53: names of include files in memory
-/

namespace Dyna.Key

open Dyna

/-- Specification: what the builder looks like between two cards. `none`: nothing has been appended. `some p`: the buffer starts with the
text `p`, behind it there is more, and `ptr` is at the end of `p`. -/
def Holds (b : SB) : Option Bytes → Prop
  | none => b = {}
  | some p => p ≠ [] ∧ p.head? ≠ some charBlank ∧
      ∃ rest, b.buffer = some (p.map some ++ rest) ∧ b.ptr = p.length ∧ b.cap = p.length + rest.length ∧ rest ≠ []

theorem readCStr_cstr (t : Bytes) (rest : List (Option Byte)) :
    readCStr (t.map some ++ some 0 :: rest) = some (cstr t) := by
  induction t with
  | nil => simp [readCStr, cstr]
  | cons c cs ih =>
    by_cases hc : c = 0
    · simp [readCStr, cstr, hc]
    · simp only [List.map_cons, List.cons_append, readCStr, if_neg hc, ih, Option.map_some]
      simp [cstr, hc]

/-- Appending to a builder that holds `p`: the text grows, a NUL follows. -/
theorem append_holds {b : SB} {p rest : List (Option Byte)} (hold : b.buffer.getD [] = p ++ rest) (hp : b.ptr = p.length)
    (hc : b.cap = p.length + rest.length) (s : Bytes) :
    ∃ rest', sbAppendLen b s = .ok ⟨some (p ++ s.map some ++ some 0 :: rest'), p.length + s.length,
      p.length + s.length + 1 + rest'.length⟩ := by
  have key : ∀ k, b.cap + (s.length + 1) ≤ k → reallocBuf b.buffer k = p ++ (rest ++ List.replicate (k - b.cap) none) := by
    intro k hk
    unfold reallocBuf
    simp only [hold]
    rw [List.take_of_length_le (by simp; omega)]
    simp [hc]
  have main : ∀ k, b.cap + (s.length + 1) ≤ k → ∃ rest', k = p.length + s.length + 1 + rest'.length ∧
      (writeAt (reallocBuf b.buffer k) b.ptr s >>= fun buf => writeAt buf (b.ptr + s.length) [0]) =
        .ok (p ++ s.map some ++ some 0 :: rest') := by
    intro k hk
    rw [key k hk, hp, writeAt_mid _ _ _ (by simp; omega), Res.bind_ok]
    have e : (p ++ List.map some s ++ List.drop s.length (rest ++ List.replicate (k - b.cap) none)).length = k := by
      simp
      omega
    have h2 := writeAt_mid (p ++ List.map some s) (List.drop s.length (rest ++ List.replicate (k - b.cap) none)) [0] (by
      simp
      omega)
    refine ⟨List.drop 1 (List.drop s.length (rest ++ List.replicate (k - b.cap) none)), ?_, ?_⟩
    · simp
      omega
    · rw [show p.length + s.length = (p ++ List.map some s).length by simp, h2]
      simp
  unfold sbAppendLen
  dsimp only
  by_cases h0 : b.ptr = 0
  · rw [if_pos h0]
    obtain ⟨rest', h1, h2⟩ := main (b.cap + (s.length + 1) + 1) (by omega)
    refine ⟨rest', ?_⟩
    cases hw : writeAt (reallocBuf b.buffer (b.cap + (s.length + 1) + 1)) b.ptr s with
    | ok buf =>
      rw [hw, Res.bind_ok] at h2
      rw [Res.bind_ok, h2, Res.bind_ok, hp, ← h1]
      rfl
    | err => rw [hw] at h2; cases h2
    | ub => rw [hw] at h2; cases h2
    | abort => rw [hw] at h2; cases h2
  · rw [if_neg h0]
    obtain ⟨rest', h1, h2⟩ := main (b.cap + (s.length + 1)) (by omega)
    refine ⟨rest', ?_⟩
    cases hw : writeAt (reallocBuf b.buffer (b.cap + (s.length + 1))) b.ptr s with
    | ok buf =>
      rw [hw, Res.bind_ok] at h2
      rw [Res.bind_ok, h2, Res.bind_ok, hp, ← h1]
      rfl
    | err => rw [hw] at h2; cases h2
    | ub => rw [hw] at h2; cases h2
    | abort => rw [hw] at h2; cases h2

theorem trimCells_spec (t : Bytes) (ht : t.head? ≠ some charBlank) (rest : List (Option Byte)) : ∀ (n : Nat), n ≤ t.length → 0 < n →
    trimCells (t.map some ++ rest) n = .ok (trimEnd (t.take n)).length := by
  intro n
  induction n with
  | zero => intro _ h; omega
  | succ n ih =>
    intro hn _
    have hg : (t.map some ++ rest)[n]? = some (some t[n]) := by
      rw [List.getElem?_append_left (by simp; omega)]
      simp
    unfold trimCells
    rw [hg]
    dsimp only
    have htake : t.take (n + 1) = t.take n ++ [t[n]] := by simp
    by_cases hc : t[n] = charBlank
    · rw [if_pos hc]
      have hn0 : 0 < n := by
        rcases Nat.eq_zero_or_pos n with h0 | h0
        · subst h0
          rw [List.head?_eq_getElem?, List.getElem?_eq_getElem (by omega), hc] at ht
          exact absurd rfl ht
        · exact h0
      rw [ih (by omega) hn0, htake]
      unfold trimEnd
      rw [List.reverse_append]
      simp [hc]
    · rw [if_neg hc, htake]
      unfold trimEnd
      rw [List.reverse_append]
      simp [hc]
      omega

theorem endsWithPlus_spec {t : Bytes} {cells : List (Option Byte)} {cap : Nat} (h2 : 2 ≤ t.length) :
    endsWithPlus ⟨some (t.map some ++ cells), t.length, cap⟩ = .ok (decide (t.drop (t.length - 2) = [charBlank, charPlus])) := by
  have hg : ∀ k, 0 < k → k ≤ 2 → cellBack ⟨some (t.map some ++ cells), t.length, cap⟩ k = .ok (t[t.length - k]?.getD 0) := by
    intro k h0 hk
    unfold cellBack
    dsimp only
    rw [if_neg (by omega), List.getElem?_append_left (by simp; omega)]
    simp [List.getElem?_eq_getElem (show t.length - k < t.length by omega)]
  unfold endsWithPlus
  rw [hg 2 (by omega) (by omega), Res.bind_ok, hg 1 (by omega) (by omega)]
  have hd : t.drop (t.length - 2) = [t[t.length - 2], t[t.length - 1]] := by
    rw [List.drop_eq_getElem_cons (by omega), List.drop_eq_getElem_cons (by omega), List.drop_eq_nil_of_le (by omega)]
    congr 2
    congr 1
    omega
  rw [hd, List.getElem?_eq_getElem (by omega), List.getElem?_eq_getElem (by omega)]
  by_cases hx : t[t.length - 2] = charBlank
  · simp [hx]
  · simp [hx]

/-- The name in the builder after the last card. -/
def Name (b : SB) (name : Bytes) : Prop := ∃ buf, b.buffer = some buf ∧ readCStr buf = some name

/-- What a card does to the builder, given what it does to the text. -/
def Follows (r : Res (SB × Bool)) : Res Multi → Prop
  | .ok (.more p) => ∃ b, r = .ok (b, false) ∧ Holds b (some p)
  | .ok (.done name) => ∃ b, r = .ok (b, true) ∧ Name b name
  | _ => r = .ub

theorem trimEnd_le (t : Bytes) : (trimEnd t).length ≤ t.length := by
  unfold trimEnd
  have := (List.dropWhile_sublist (fun x => decide (x = charBlank)) (l := t.reverse)).length_le
  simpa using this

theorem trimEnd_prefix (t : Bytes) : ∃ u, t = trimEnd t ++ u := by
  unfold trimEnd
  refine ⟨(t.reverse.takeWhile (fun x => decide (x = charBlank))).reverse, ?_⟩
  rw [← List.reverse_append, List.takeWhile_append_dropWhile, List.reverse_reverse]

theorem nameAppend_follows {b : SB} {p : Bytes} {rest : List (Option Byte)} (hold : b.buffer.getD [] = p.map some ++ rest)
    (hp : b.ptr = p.length) (hc : b.cap = p.length + rest.length) (s : Bytes) (hh : (p ++ s).head? ≠ some charBlank) : Follows (nameAppend b s) (multiEnd (p ++ s)) := by
  obtain ⟨rest', e⟩ := append_holds (p := p.map some) hold (by simpa using hp) (by simpa using hc) s
  rw [← List.map_append] at e
  simp only [List.length_map] at e
  rw [← List.length_append] at e
  generalize p ++ s = t at *
  unfold nameAppend
  rw [e, Res.bind_ok]
  unfold multiEnd
  by_cases h2 : t.length < 2
  · rw [if_pos h2]
    show _ = _
    unfold endsWithPlus cellBack
    dsimp only
    rw [if_pos h2]
    rfl
  · rw [if_neg h2, endsWithPlus_spec (by omega), Res.bind_ok]
    by_cases hd : t.drop (t.length - 2) = [charBlank, charPlus]
    · rw [if_pos hd, if_pos (by simpa using hd)]
      have ht : t = t.take (t.length - 2) ++ [charBlank, charPlus] := by
        rw [← hd, List.take_append_drop]
      have hl : (t.take (t.length - 2)).length = t.length - 2 := by simp
      refine ⟨_, rfl, ?_, ?_, ?_⟩
      · intro h0
        rw [h0] at ht
        rw [ht] at hh
        simp at hh
      · intro h0
        apply hh
        rw [ht]
        generalize t.take (t.length - 2) = q at *
        cases q with
        | nil => simp at h0
        | cons => simpa using h0
      · refine ⟨[charBlank, charPlus].map some ++ some 0 :: rest', ?_, ?_, ?_, by simp⟩
        · conv => lhs; rw [ht]
          simp
        · simp
        · simp
          omega
    · rw [if_neg hd, if_neg (by simpa using hd)]
      show ∃ b, _
      dsimp only
      rw [trimCells_spec t hh _ t.length (Nat.le_refl _) (by omega), Res.bind_ok, List.take_length]
      obtain ⟨u, hu⟩ := trimEnd_prefix t
      have hw := writeAt_mid ((trimEnd t).map some) (u.map some ++ some 0 :: rest') [0] (by simp; omega)
      simp only [List.length_map] at hw
      rw [show List.map some t ++ some 0 :: rest' = (trimEnd t).map some ++ (u.map some ++ some 0 :: rest') by
        conv => lhs; rw [hu]
        simp, hw, Res.bind_ok]
      refine ⟨_, rfl, _, rfl, ?_⟩
      rw [List.append_assoc]
      exact readCStr_cstr _ _

/-- **C53**, memory: for every card of a name, whatever has been read before, the function leaves exactly the text in the buffer that
`multiLine` says; no byte outside of the buffer and no byte that has not been written is used, except if the whole name has a single
character so far: then the byte in front of the buffer is read. -/
theorem c53_name_memory {b : SB} {pending : Option Bytes} (h : Holds b pending) (cells : Bytes) :
    Follows (nameCard b cells) (multiLine pending cells) := by
  unfold nameCard multiLine
  cases pending with
  | none =>
    have hb : b = {} := h
    subst hb
    rw [if_pos rfl]
    dsimp only
    by_cases h0 : cells.dropWhile (fun x => decide (x = charBlank)) = []
    · rw [if_pos h0, if_pos h0]
      exact ⟨⟨some [some 0, some 0], 1, 2⟩, rfl, _, rfl, rfl⟩
    · rw [if_neg h0, if_neg h0]
      refine nameAppend_follows (p := []) (rest := []) rfl rfl rfl _ ?_
      intro hh
      have := List.head?_dropWhile_not (fun x => decide (x = charBlank)) cells
      rw [List.nil_append] at hh
      rw [hh] at this
      simp at this
  | some p =>
    obtain ⟨hp, hh, rest, h1, h2, h3, h4⟩ := h
    have hcap : b.cap ≠ 0 := by
      have : rest.length ≠ 0 := by simpa using h4
      omega
    rw [if_neg hcap]
    dsimp only
    refine nameAppend_follows (by rw [h1]; rfl) h2 h3 cells ?_
    cases p with
    | nil => exact absurd rfl hp
    | cons => simpa using hh

/-- The cards of a name one after the other, until it is complete. The rest is not read.
Code: `/repo/src/key.c:382, 444, 478, 549, 569` (one call for each card). -/
def nameCards (b : SB) : List Bytes → Res (SB × Bool)
  | [] => .ok (b, false)
  | c :: cs => do
    let r ← nameCard b c
    if r.2 then .ok r else nameCards r.1 cs

theorem dropWhile_nil {c : Bytes} (h : c.dropWhile (fun x => decide (x = charBlank)) = []) : ∀ x ∈ c, x = charBlank := by
  intro x hx
  have h1 := List.takeWhile_append_dropWhile (p := fun x => decide (x = charBlank)) (l := c)
  rw [h, List.append_nil] at h1
  rw [← h1] at hx
  simpa using List.all_eq_true.1 List.all_takeWhile x hx

/-- Auxiliary of the proofs: the cards behind the first one. -/
theorem nameCards_go {last : Bytes} : ∀ (ps : List Bytes) (p : Bytes) (b : SB) (more : List Bytes), Holds b (some p) →
    2 ≤ (p ++ ps.flatten ++ last).length → ¬ [charBlank, charPlus] <:+ p ++ ps.flatten ++ last →
    ∃ b', nameCards b (ps.map (· ++ [charBlank, charPlus]) ++ last :: more) = .ok (b', true) ∧
      Name b' (cstr (trimEnd (p ++ ps.flatten ++ last))) := by
  intro ps
  induction ps with
  | nil =>
    intro p b more h h2 hs
    simp only [List.flatten_nil, List.append_nil] at h2 hs ⊢
    have hf := c53_name_memory h last
    have hm : multiLine (some p) last = .ok (.done (cstr (trimEnd (p ++ last)))) := by
      unfold multiLine multiEnd
      dsimp only
      rw [if_neg (by omega), if_neg]
      intro hd
      exact hs ⟨(p ++ last).take ((p ++ last).length - 2), by rw [← hd, List.take_append_drop]⟩
    rw [hm] at hf
    obtain ⟨b', e, hn⟩ := hf
    refine ⟨b', ?_, hn⟩
    simp only [List.map_nil, List.nil_append, nameCards]
    rw [e]
    rfl
  | cons c ps ih =>
    intro p b more h h2 hs
    have hf := c53_name_memory h (c ++ [charBlank, charPlus])
    have hm : multiLine (some p) (c ++ [charBlank, charPlus]) = .ok (.more (p ++ c)) := by
      unfold multiLine multiEnd
      dsimp only
      rw [← List.append_assoc]
      have hl : (p ++ c ++ [charBlank, charPlus]).length - 2 = (p ++ c).length := by
        simp
        omega
      rw [if_neg (by simp; omega), hl, List.drop_left, if_pos rfl, List.take_left]
    rw [hm] at hf
    obtain ⟨b1, e, hb1⟩ := hf
    have hassoc : p ++ (c :: ps).flatten ++ last = p ++ c ++ ps.flatten ++ last := by simp
    rw [hassoc] at h2 hs ⊢
    obtain ⟨b', e', hn⟩ := ih (p ++ c) b1 more hb1 h2 hs
    refine ⟨b', ?_, hn⟩
    simp only [List.map_cons, List.cons_append, nameCards]
    rw [e, Res.bind_ok]
    exact e'

/-- **C53**: a name that is written over any number of cards, with " +" at the end of all but the last, is in the builder after the last of
these cards: the cards one after the other, without the blanks at both ends. What follows is not read. -/
theorem c53_name_cards (ps : List Bytes) (last : Bytes) (more : List Bytes)
    (hfirst : ∀ c, ps.head? = some c → ∃ x ∈ c, x ≠ charBlank)
    (h2 : 2 ≤ ((ps.flatten ++ last).dropWhile (· = charBlank)).length) (hs : ¬ [charBlank, charPlus] <:+ ps.flatten ++ last) :
    ∃ b, nameCards {} (ps.map (· ++ [charBlank, charPlus]) ++ last :: more) = .ok (b, true) ∧
      Name b (cstr (trimEnd ((ps.flatten ++ last).dropWhile (· = charBlank)))) := by
  cases ps with
  | nil =>
    simp only [List.flatten_nil, List.nil_append, List.map_nil] at h2 hs ⊢
    have hf := c53_name_memory (b := {}) (pending := none) rfl last
    have hm : multiLine none last = .ok (.done (cstr (trimEnd (last.dropWhile (· = charBlank))))) := by
      unfold multiLine multiEnd
      dsimp only
      rw [if_neg (by intro h; rw [h] at h2; simp at h2), if_neg (by omega), if_neg]
      intro hd
      refine hs (List.IsSuffix.trans ?_ (List.dropWhile_suffix (fun x => decide (x = charBlank))))
      exact ⟨_, by rw [← hd, List.take_append_drop]⟩
    rw [hm] at hf
    obtain ⟨b', e, hn⟩ := hf
    refine ⟨b', ?_, hn⟩
    simp only [nameCards]
    rw [e]
    rfl
  | cons c ps =>
    obtain ⟨x, hx, hxb⟩ := hfirst c rfl
    have hc : ∀ t, (c ++ t).dropWhile (fun x => decide (x = charBlank)) = c.dropWhile (fun x => decide (x = charBlank)) ++ t := by
      intro t
      rw [List.dropWhile_append]
      rw [if_neg]
      intro h0
      rw [List.isEmpty_iff] at h0
      exact hxb (dropWhile_nil h0 x hx)
    have hcne : c.dropWhile (fun x => decide (x = charBlank)) ≠ [] := by
      intro h0
      exact hxb (dropWhile_nil h0 x hx)
    rw [List.flatten_cons, List.append_assoc, hc, ← List.append_assoc] at h2 ⊢
    have hs' : ¬ [charBlank, charPlus] <:+ c.dropWhile (fun x => decide (x = charBlank)) ++ ps.flatten ++ last := by
      intro h
      refine hs (List.IsSuffix.trans h ?_)
      rw [List.flatten_cons, List.append_assoc, List.append_assoc]
      obtain ⟨u, hu⟩ := List.dropWhile_suffix (fun x => decide (x = charBlank)) (l := c)
      exact ⟨u, by rw [← List.append_assoc, hu]⟩
    have hf := c53_name_memory (b := {}) (pending := none) rfl (c ++ [charBlank, charPlus])
    have hm : multiLine none (c ++ [charBlank, charPlus]) = .ok (.more (c.dropWhile (fun x => decide (x = charBlank)))) := by
      unfold multiLine multiEnd
      dsimp only
      rw [hc]
      have hl : (c.dropWhile (fun x => decide (x = charBlank)) ++ [charBlank, charPlus]).length - 2 =
        (c.dropWhile (fun x => decide (x = charBlank))).length := by simp
      rw [if_neg (by simp), if_neg (by simp), hl, List.drop_left, if_pos rfl, List.take_left]
    rw [hm] at hf
    obtain ⟨b1, e, hb1⟩ := hf
    obtain ⟨b', e', hn⟩ := nameCards_go ps _ b1 more hb1 h2 hs'
    refine ⟨b', ?_, hn⟩
    simp only [List.map_cons, List.cons_append, nameCards]
    rw [e, Res.bind_ok]
    exact e'

/-- Not vacuous: a name on three cards. -/
example : ∃ b, nameCards {} [bs "  dir/ +", bs "sub +", bs "a.k  ", bs "x"] = .ok (b, true) ∧ Name b (bs "dir/suba.k") :=
  ⟨_, rfl, _, rfl, rfl⟩

/-- **C53**, exact: a card cannot be used if and only if it makes the name a single character. -/
theorem c53_name_exact (pending : Option Bytes) (hp : pending ≠ some []) (cells : Bytes) :
    multiLine pending cells = .ub ↔
      (pending = none ∧ (cells.dropWhile (· = charBlank)).length = 1) ∨ (∃ c, pending = some [c] ∧ cells = []) := by
  unfold multiLine multiEnd
  cases pending with
  | none =>
    dsimp only
    by_cases h0 : cells.dropWhile (fun x => decide (x = charBlank)) = []
    · rw [if_pos h0, h0]
      simp
    · rw [if_neg h0]
      have : (cells.dropWhile (fun x => decide (x = charBlank))).length ≠ 0 := by simpa using h0
      split
      · simp
        omega
      · split <;> simp <;> omega
  | some p =>
    dsimp only
    have hp' : p.length ≠ 0 := by simpa using hp
    split
    · rename_i h
      rw [List.length_append] at h
      refine ⟨fun _ => .inr ?_, fun _ => rfl⟩
      obtain ⟨c, hc⟩ := List.length_eq_one_iff.1 (show p.length = 1 by omega)
      exact ⟨c, by rw [hc], List.eq_nil_of_length_eq_zero (by omega)⟩
    · rename_i h
      rw [List.length_append] at h
      refine ⟨fun hu => ?_, fun hu => ?_⟩
      · split at hu <;> cases hu
      · rcases hu with ⟨hu, _⟩ | ⟨c, hu, h0⟩
        · cases hu
        · cases hu
          subst h0
          simp at h

end Dyna.Key
