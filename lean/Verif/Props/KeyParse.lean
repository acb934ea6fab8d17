import Verif.KeyParse
import Verif.Props.LineReader
import Verif.Props.KeyFile
/-!
# Property C43: the callbacks of a key file

The specification reads the text of the file line by line.
-/

namespace Dyna.Key

/-! ## Specification -/

/-- What counts of a line: nothing if it starts with '$', otherwise the text before the first
'$'. -/
def visible (text : Bytes) : Option Bytes :=
  if text.head? = some charComment then none else some (text.takeWhile (· ≠ charComment))

/-- A keyword line: a '*' after any number of blanks. -/
def isHeader (v : Bytes) : Bool := (v.dropWhile (· = charBlank)).head? == some charStar

/-- The name behind the '*' up to a blank. -/
def headerName (v : Bytes) : Bytes :=
  ((v.dropWhile (· = charBlank)).drop 1).takeWhile (· ≠ charBlank)

/-- The line `*END`. -/
def isEnd (v : Bytes) : Bool := isHeader v && headerName v == bs "END"

/-- The lines that count: without comment lines, and up to `*END`. -/
def countedLines (texts : List Bytes) : List Bytes :=
  (texts.filterMap visible).takeWhile (fun v => !isEnd v)

/-- The lines in front of the next keyword line. -/
def cardsOf (vs : List Bytes) : List Bytes := vs.takeWhile (fun v => !isHeader v)

/-- The keywords of the counted lines, each with its cards. -/
def blocksOf : List Bytes → List Keyword
  | [] => []
  | v :: vs => if isHeader v then ⟨headerName v, cardsOf vs⟩ :: blocksOf vs else blocksOf vs

/-- The calls of the callback for the cards of a keyword, starting with index `i`. -/
def cardCalls (name : Bytes) (i : Nat) (cards : List Bytes) : List KeyEvent :=
  cards.mapIdx (fun k c => ⟨name, some c, some (i + k)⟩)

/-- The calls of the callback for a keyword: one for each card, or one without card. -/
def blockCalls (b : Keyword) : List KeyEvent :=
  if b.cards = [] then [⟨b.name, none, none⟩] else cardCalls b.name 0 b.cards

/-- The length of a keyword line is not problematic: it is shorter than 82 characters, or there are
at most 81 blanks in front of the '*' and at least 81 characters behind it. -/
def HeaderOk (text : Bytes) : Prop :=
  text.length < 82 ∨
    ((text.takeWhile (· = charBlank)).length ≤ 81 ∧
      (text.takeWhile (· = charBlank)).length + 82 ≤ text.length)

/-! ## Cells of a line -/

theorem findIdx?_takeWhile (t : Bytes) (i : Nat) (h : commentOf t = some i) :
    i = (t.takeWhile (· ≠ charComment)).length ∧ i < t.length := by
  unfold commentOf at h
  induction t generalizing i with
  | nil => simp at h
  | cons c cs ih =>
    rw [List.findIdx?_cons] at h
    by_cases hc : c = charComment
    · subst hc; simp at h; subst h; simp
    · simp only [hc, decide_false, Bool.false_eq_true, if_false, Option.map_eq_some_iff] at h
      obtain ⟨j, hj, rfl⟩ := h
      obtain ⟨h1, h2⟩ := ih j hj
      simp [hc, h2]
      simpa using h1

theorem commentOf_none (t : Bytes) (h : commentOf t = none) :
    t.takeWhile (· ≠ charComment) = t := by
  unfold commentOf at h
  rw [List.findIdx?_eq_none_iff] at h
  induction t with
  | nil => rfl
  | cons c cs ih =>
    have hc : c ≠ charComment := by simpa using h c (by simp)
    rw [List.takeWhile_cons_of_pos (by simpa using hc), ih (fun x hx => h x (by simp [hx]))]

/-- The memory of a line is the visible text, possibly followed by a NUL and more. -/
theorem lineCells_eq (t : Bytes) :
    (commentOf t = none ∧ lineCells ⟨t, commentOf t⟩ = t.takeWhile (· ≠ charComment)) ∨
    (∃ r, lineCells ⟨t, commentOf t⟩ = t.takeWhile (· ≠ charComment) ++ 0 :: r) := by
  cases h : commentOf t with
  | none => left; simp only [lineCells]; exact ⟨trivial, (commentOf_none t h).symm⟩
  | some i =>
    right
    obtain ⟨h1, h2⟩ := findIdx?_takeWhile t i h
    refine ⟨t.drop (i + 1), ?_⟩
    simp only [lineCells]
    rw [List.set_eq_take_append_cons_drop, if_pos h2]
    congr 1
    have := (List.takeWhile_prefix (l := t) (fun x => decide (x ≠ charComment)))
    rw [List.prefix_iff_eq_take] at this
    rw [this, ← h1]

theorem commentOf_zero (t : Bytes) : commentOf t = some 0 ↔ t.head? = some charComment := by
  cases t with
  | nil => simp [commentOf]
  | cons c cs =>
    unfold commentOf
    rw [List.findIdx?_cons]
    by_cases hc : c = charComment
    · simp [hc]
    · simp [hc]

theorem takeWhile_append_stop {α : Type} {p : α → Bool} (a : List α) (x : α) (r : List α)
    (hx : p x = false) : (a ++ x :: r).takeWhile p = a.takeWhile p := by
  induction a with
  | nil => simp [hx]
  | cons y ys ih =>
    simp only [List.cons_append]
    by_cases hy : p y = true
    · rw [List.takeWhile_cons_of_pos hy, List.takeWhile_cons_of_pos hy, ih]
    · rw [List.takeWhile_cons_of_neg hy, List.takeWhile_cons_of_neg hy]

theorem lineCells_cstr (t : Bytes) (h0 : 0 ∉ t) :
    cstr (lineCells ⟨t, commentOf t⟩) = t.takeWhile (· ≠ charComment) := by
  have hv : (t.takeWhile (· ≠ charComment)).takeWhile (· ≠ 0) = t.takeWhile (· ≠ charComment) := by
    have : ∀ l : Bytes, 0 ∉ l → l.takeWhile (· ≠ 0) = l := by
      intro l hl
      induction l with
      | nil => rfl
      | cons c cs ih =>
        have hc : c ≠ 0 := fun e => hl (by simp [e])
        rw [List.takeWhile_cons_of_pos (by simpa using hc), ih (fun e => hl (by simp [e]))]
    apply this
    intro hm
    exact h0 ((List.takeWhile_prefix _).subset hm)
  unfold cstr
  rcases lineCells_eq t with ⟨_, h⟩ | ⟨r, h⟩
  · rw [h, hv]
  · rw [h, takeWhile_append_stop _ _ _ (by simp), hv]

theorem getElem?_takeWhile_length {α : Type} (p : α → Bool) (l : List α) :
    l[(l.takeWhile p).length]? = (l.dropWhile p).head? := by
  induction l with
  | nil => rfl
  | cons c cs ih =>
    by_cases hc : p c = true
    · rw [List.takeWhile_cons_of_pos hc, List.dropWhile_cons_of_pos hc]; simpa using ih
    · rw [List.takeWhile_cons_of_neg hc, List.dropWhile_cons_of_neg hc]; simp

theorem drop_takeWhile_length {α : Type} (p : α → Bool) (l : List α) :
    l.drop (l.takeWhile p).length = l.dropWhile p := by
  induction l with
  | nil => rfl
  | cons c cs ih =>
    by_cases hc : p c = true
    · rw [List.takeWhile_cons_of_pos hc, List.dropWhile_cons_of_pos hc]; simpa using ih
    · rw [List.takeWhile_cons_of_neg hc, List.dropWhile_cons_of_neg hc]; simp

theorem dropWhile_append_stop {α : Type} {p : α → Bool} (a : List α) (x : α) (r : List α)
    (hx : p x = false) : (a ++ x :: r).dropWhile p = a.dropWhile p ++ x :: r := by
  induction a with
  | nil => simp [hx]
  | cons y ys ih =>
    simp only [List.cons_append]
    by_cases hy : p y = true
    · rw [List.dropWhile_cons_of_pos hy, List.dropWhile_cons_of_pos hy, ih]
    · rw [List.dropWhile_cons_of_neg hy, List.dropWhile_cons_of_neg hy]; rfl

theorem isKeyword_eq (t : Bytes) :
    isKeyword (lineCells ⟨t, commentOf t⟩) = isHeader (t.takeWhile (· ≠ charComment)) := by
  unfold isKeyword isHeader blanks
  rw [getElem?_takeWhile_length]
  rw [show ∀ a b : Option Nat, (a == b) = decide (a = b) from fun a b => by
    by_cases h : a = b <;> simp [h]]
  rcases lineCells_eq t with ⟨_, h⟩ | ⟨r, h⟩
  · rw [h]
  · rw [h, dropWhile_append_stop _ _ _ (by decide)]
    cases hd : (t.takeWhile (· ≠ charComment)).dropWhile (· = charBlank) with
    | nil => simp [charStar]
    | cons x xs => simp

theorem lineCells_length (t : Bytes) : (lineCells ⟨t, commentOf t⟩).length = t.length := by
  unfold lineCells; cases commentOf t <;> simp

theorem keywordName_eq (t : Bytes) (h0 : 0 ∉ t) (hh : isHeader (t.takeWhile (· ≠ charComment)))
    (hok : HeaderOk t) :
    keywordName (lineCells ⟨t, commentOf t⟩) =
      .ok (headerName (t.takeWhile (· ≠ charComment))) := by
  generalize hv : t.takeWhile (· ≠ charComment) = v at *
  have hb : blanks (lineCells ⟨t, commentOf t⟩) = (v.takeWhile (· = charBlank)).length := by
    unfold blanks
    rcases lineCells_eq t with ⟨_, h⟩ | ⟨r, h⟩
    · rw [h, hv]
    · rw [h, hv, takeWhile_append_stop _ _ _ (by decide)]
  have hbt : (t.takeWhile (· = charBlank)).length = (v.takeWhile (· = charBlank)).length := by
    rw [← List.takeWhile_append_dropWhile (p := fun x => decide (x ≠ charComment)) (l := t), hv]
    cases hd : t.dropWhile (fun x => decide (x ≠ charComment)) with
    | nil => simp
    | cons x xs =>
      have hx := List.head?_dropWhile_not (fun x => decide (x ≠ charComment)) t
      rw [hd] at hx
      have hx' : x = charComment := by simpa using hx
      rw [takeWhile_append_stop]
      rw [hx']; decide
  have hlt : (v.takeWhile (· = charBlank)).length < v.length := by
    unfold isHeader at hh
    have hl := congrArg List.length
      (List.takeWhile_append_dropWhile (p := fun x => decide (x = charBlank)) (l := v))
    rw [List.length_append] at hl
    cases hd : v.dropWhile (· = charBlank) with
    | nil => rw [hd] at hh; simp at hh
    | cons x xs => rw [hd] at hl; simp only [List.length_cons] at hl; omega
  have hvt : v.length ≤ t.length := by
    rw [← hv]; exact (List.takeWhile_prefix _).length_le
  unfold HeaderOk at hok
  rw [hbt] at hok
  unfold keywordName
  simp only [hb, lineCells_length, bufferSize]
  rw [if_neg (by omega), if_neg (by omega)]
  congr 1
  have e1 : ∀ l : Bytes, 0 ∉ l → l.takeWhile (fun c => decide (c ≠ charBlank ∧ c ≠ 0)) =
      l.takeWhile (· ≠ charBlank) := by
    intro l hl
    induction l with
    | nil => rfl
    | cons c cs ih =>
      have hc : c ≠ 0 := fun e => hl (by simp [e])
      have ih' := ih (fun e => hl (by simp [e]))
      by_cases hcb : c = charBlank
      · simp [hcb]
      · simp only [List.takeWhile_cons, hcb, hc, ne_eq, not_false_iff, and_self, decide_true,
          if_true, decide_not] at ih' ⊢
        simp only [ih', decide_false, Bool.not_false, if_true]
  have hv0 : 0 ∉ v := by
    intro hm; rw [← hv] at hm; exact h0 ((List.takeWhile_prefix _).subset hm)
  have key : (v.drop ((v.takeWhile (· = charBlank)).length + 1)).takeWhile
      (fun c => decide (c ≠ charBlank ∧ c ≠ 0)) = headerName v := by
    rw [e1 _ (fun hm => hv0 (List.mem_of_mem_drop hm))]
    unfold headerName
    rw [← List.drop_drop, drop_takeWhile_length]
  rcases lineCells_eq t with ⟨_, h⟩ | ⟨r, h⟩
  · rw [h, hv]; exact key
  · rw [h, hv, List.drop_append_of_le_length (by omega), takeWhile_append_stop _ _ _ (by simp)]
    exact key

/-! ## The loop -/

/-- The calls from a state with current keyword `name` and card index `ci` on, for the rest of the
lines (proof device). -/
def restCalls (name : Bytes) (ci : Nat) : List Bytes → List KeyEvent
  | [] => if ci = 0 then [⟨name, none, none⟩] else []
  | t :: ts =>
    match visible t with
    | none => restCalls name ci ts
    | some v =>
      if isHeader v then
        (if name ≠ [] ∧ ci = 0 then [⟨name, none, none⟩] else []) ++
          (if headerName v = bs "END" then [] else restCalls (headerName v) 0 ts)
      else ⟨name, some v, some ci⟩ :: restCalls name (ci + 1) ts

/-- Lines that the loop treats without includes and without undefined behaviour. -/
structure Plain (texts : List Bytes) : Prop where
  nul : ∀ t ∈ texts, 0 ∉ t
  ok : ∀ t ∈ texts, ∀ v, visible t = some v → isHeader v = true → HeaderOk t
  noInclude : ∀ t ∈ texts, ∀ v, visible t = some v → isHeader v = true →
    ¬ bs "INCLUDE" <+: headerName v

theorem Plain.tail {t : Bytes} {ts : List Bytes} (h : Plain (t :: ts)) : Plain ts :=
  ⟨fun x hx => h.nul x (by simp [hx]), fun x hx => h.ok x (by simp [hx]),
    fun x hx => h.noInclude x (by simp [hx])⟩

theorem linesLoop_plain (w : World) (cfg : Config) (root : Bytes)
    (inc : Bytes → Shared → Res Shared) (file : Bytes) (texts : List Bytes) (hp : Plain texts) :
    ∀ (l : Local) (s : Shared), ¬ bs "INCLUDE" <+: l.name → l.name ≠ bs "END" →
      l.pending = none →
      ∃ l' s', linesLoop w cfg root inc file (texts.map fun t => ⟨t, commentOf t⟩) l s =
          .ok (l', s') ∧
        finish l' s' = { s with events := s.events ++ restCalls l.name l.cardIndex texts } := by
  induction texts with
  | nil =>
    intro l s hi he hpd
    refine ⟨l, s, rfl, ?_⟩
    unfold finish restCalls
    by_cases hc : l.cardIndex = 0
    · rw [if_pos ⟨hc, he⟩, if_pos hc, hpd]; rfl
    · rw [if_neg (fun h => hc h.1), if_neg hc]; simp
  | cons t ts ih =>
    intro l s hi he hpd
    simp only [List.map_cons, linesLoop]
    by_cases hc0 : t.head? = some charComment
    · rw [if_pos ((commentOf_zero t).2 hc0)]
      have hvis : visible t = none := by unfold visible; rw [if_pos hc0]
      simp only [restCalls, hvis]
      exact ih hp.tail { l with lineCount := l.lineCount + 1 } s hi he hpd
    · rw [if_neg (fun h => hc0 ((commentOf_zero t).1 h))]
      have hvis : visible t = some (t.takeWhile (· ≠ charComment)) := by
        unfold visible; rw [if_neg hc0]
      simp only [restCalls, hvis]
      rw [isKeyword_eq]
      by_cases hh : isHeader (t.takeWhile (· ≠ charComment)) = true
      · rw [if_pos hh, if_pos hh]
        rw [keywordName_eq t (hp.nul t (by simp)) hh (hp.ok t (by simp) _ hvis hh)]
        simp only [Res.bind_ok]
        have hclose : ∀ l : Local, closeKeyword l s = { s with events := s.events ++
            (if l.name ≠ [] ∧ l.cardIndex = 0 then [⟨l.name, none, none⟩] else []) } := by
          intro l
          unfold closeKeyword
          split
          · rfl
          · simp
        rw [hclose]
        by_cases hend : headerName (t.takeWhile (· ≠ charComment)) = bs "END"
        · rw [if_pos hend, if_pos hend]
          refine ⟨_, _, rfl, ?_⟩
          unfold finish
          rw [if_neg (fun h => h.2 hend)]
          simp
        · rw [if_neg hend, if_neg hend]
          obtain ⟨l', s', h1, h2⟩ := ih hp.tail
            { l with lineCount := l.lineCount + 1,
                     name := headerName (t.takeWhile (· ≠ charComment)), cardIndex := 0 }
            { s with events := s.events ++
              (if l.name ≠ [] ∧ l.cardIndex = 0 then [⟨l.name, none, none⟩] else []) }
            (hp.noInclude t (by simp) _ hvis hh) hend hpd
          refine ⟨l', s', h1, ?_⟩
          rw [h2]; simp
      · rw [if_neg hh, if_neg hh]
        have hstep : ∀ l : Local, ¬ bs "INCLUDE" <+: l.name → l.pending = none →
            cardStep w cfg root inc file l s (lineCells ⟨t, commentOf t⟩) =
              .ok ({ l with cardIndex := l.cardIndex + 1 },
                s.emit ⟨l.name, some (t.takeWhile (· ≠ charComment)), some l.cardIndex⟩) := by
          intro l hi hpd
          unfold cardStep startsWith
          rw [if_neg (by rw [List.isPrefixOf_iff_prefix]; exact hi)]
          unfold report
          rw [lineCells_cstr t (hp.nul t (by simp)), hpd]
        rw [hstep { l with lineCount := l.lineCount + 1 } hi hpd]
        simp only [Res.bind_ok]
        obtain ⟨l', s', h1, h2⟩ := ih hp.tail
          { l with lineCount := l.lineCount + 1, cardIndex := l.cardIndex + 1 }
          (s.emit ⟨l.name, some (t.takeWhile (· ≠ charComment)), some l.cardIndex⟩) hi he hpd
        refine ⟨l', s', h1, ?_⟩
        rw [h2]; simp [Shared.emit]

/-! ## The calls in terms of the specification -/

theorem countedLines_nil : countedLines [] = [] := rfl

theorem countedLines_none {t : Bytes} {ts : List Bytes} (h : visible t = none) :
    countedLines (t :: ts) = countedLines ts := by
  unfold countedLines; rw [List.filterMap_cons_none h]

theorem countedLines_some {t v : Bytes} {ts : List Bytes} (h : visible t = some v) :
    countedLines (t :: ts) = if isEnd v then [] else v :: countedLines ts := by
  unfold countedLines; rw [List.filterMap_cons_some h, List.takeWhile_cons]
  cases isEnd v <;> simp

theorem cardCalls_cons (name : Bytes) (i : Nat) (c : Bytes) (cs : List Bytes) :
    cardCalls name i (c :: cs) = ⟨name, some c, some i⟩ :: cardCalls name (i + 1) cs := by
  unfold cardCalls
  rw [List.mapIdx_cons]
  simp only [Nat.add_zero]
  congr 1
  apply List.mapIdx_eq_mapIdx_iff.2
  intro k hk
  simp; omega

/-- No keyword line, also not `*END`. -/
def NoHeader (texts : List Bytes) : Prop := ∀ v ∈ texts.filterMap visible, isHeader v = false

instance (texts : List Bytes) : Decidable (NoHeader texts) :=
  inferInstanceAs (Decidable (∀ v ∈ texts.filterMap visible, isHeader v = false))

theorem restCalls_eq (texts : List Bytes)
    (hn : ∀ b ∈ blocksOf (countedLines texts), b.name ≠ []) (name : Bytes) (ci : Nat) :
    restCalls name ci texts = cardCalls name ci (cardsOf (countedLines texts)) ++
      (if ci = 0 ∧ cardsOf (countedLines texts) = [] ∧ (name ≠ [] ∨ NoHeader texts)
        then [⟨name, none, none⟩] else []) ++
      (blocksOf (countedLines texts)).flatMap blockCalls := by
  induction texts generalizing name ci with
  | nil =>
    simp [restCalls, countedLines, cardsOf, blocksOf, cardCalls, NoHeader]
  | cons t ts ih =>
    cases hv : visible t with
    | none =>
      rw [countedLines_none hv] at hn ⊢
      simp only [restCalls, hv]
      rw [ih hn]
      have : NoHeader (t :: ts) ↔ NoHeader ts := by
        unfold NoHeader; rw [List.filterMap_cons_none hv]
      simp only [this]
    | some v =>
      rw [countedLines_some hv] at hn ⊢
      simp only [restCalls, hv]
      by_cases hh : isHeader v = true
      · rw [if_pos hh]
        have hnh : ¬ NoHeader (t :: ts) := by
          intro h
          have := h v (by rw [List.filterMap_cons_some hv]; simp)
          rw [this] at hh; cases hh
        by_cases hend : headerName v = bs "END"
        · have he : isEnd v = true := by unfold isEnd; simp [hh, hend]
          rw [if_pos hend, if_pos he]
          simp only [cardsOf, List.takeWhile_nil, blocksOf, List.flatMap_nil, List.append_nil,
            cardCalls, List.mapIdx_nil, List.nil_append, true_and, hnh, or_false]
          congr 1
          apply propext
          constructor
          · rintro ⟨a, b⟩; exact ⟨b, a⟩
          · rintro ⟨a, b⟩; exact ⟨b, a⟩
        · have he : isEnd v = false := by unfold isEnd; simp [hend]
          rw [if_neg hend]
          simp only [he, Bool.false_eq_true, if_false] at hn ⊢
          have hb : blocksOf (v :: countedLines ts) =
              ⟨headerName v, cardsOf (countedLines ts)⟩ :: blocksOf (countedLines ts) := by
            rw [blocksOf, if_pos hh]
          rw [hb] at hn ⊢
          have hnv : headerName v ≠ [] := hn ⟨headerName v, cardsOf (countedLines ts)⟩ (by simp)
          rw [ih (fun b hb' => hn b (by simp [hb']))]
          have hc : cardsOf (v :: countedLines ts) = [] := by
            unfold cardsOf; rw [List.takeWhile_cons]; simp [hh]
          rw [hc]
          simp only [List.flatMap_cons, hnh, or_false, true_and, hnv, ne_eq, not_false_iff,
            true_or, and_true]
          have hbc : blockCalls ⟨headerName v, cardsOf (countedLines ts)⟩ =
              cardCalls (headerName v) 0 (cardsOf (countedLines ts)) ++
              (if cardsOf (countedLines ts) = [] then [⟨headerName v, none, none⟩] else []) := by
            unfold blockCalls
            by_cases hcs : cardsOf (countedLines ts) = []
            · simp [hcs, cardCalls]
            · simp [hcs]
          rw [hbc]
          have hnil : cardCalls name ci [] = [] := rfl
          rw [hnil, List.nil_append]
          congr 1
          by_cases h1 : name = [] <;> by_cases h2 : ci = 0 <;> simp [h1, h2]
      · have hh' : isHeader v = false := by simpa using hh
        rw [if_neg hh]
        have he : isEnd v = false := by unfold isEnd; simp [hh']
        simp only [he, Bool.false_eq_true, if_false] at hn ⊢
        have hb : blocksOf (v :: countedLines ts) = blocksOf (countedLines ts) := by
          rw [blocksOf, if_neg hh]
        rw [hb] at hn ⊢
        have hc : cardsOf (v :: countedLines ts) = v :: cardsOf (countedLines ts) := by
          unfold cardsOf; rw [List.takeWhile_cons]; simp [hh']
        rw [hc, ih hn, cardCalls_cons]
        simp

/-! ## The whole file -/

theorem rootFolder_ok (w : World) (file : Bytes) (h : w.cwd.head? = some SEP) :
    ∃ root, rootFolder w file = .ok root := by
  unfold rootFolder
  cases hm : pathMoveUp file with
  | none => exact ⟨_, rfl⟩
  | some i =>
    simp only
    by_cases ha : file.head? = some SEP
    · rw [if_pos ha]; exact ⟨_, rfl⟩
    · rw [if_neg ha]
      have hne : w.cwd ≠ [] := by intro e; rw [e] at h; cases h
      obtain ⟨full, h1, h2⟩ := pathJoin_components w.cwd file hne
      have hfull : full.head? = some SEP := by
        unfold pathJoin at h1
        rw [if_neg hne] at h1
        simp only [Res.ok.injEq] at h1
        rw [← h1]
        cases hc : w.cwd with
        | nil => exact absurd hc hne
        | cons x xs => rw [hc] at h; simpa using h
      rw [h1]
      simp only [Res.bind_ok]
      cases hm2 : pathMoveUp full with
      | some j => exact ⟨_, rfl⟩
      | none =>
        exfalso
        have hc := (c06_path_move_up_partial full hfull).1.1 hm2
        rw [h2] at hc
        have hcf : components file = [] := (List.append_eq_nil_iff.1 hc).2
        cases file with
        | nil => simp [pathMoveUp, lastSepFrom] at hm
        | cons c cs =>
          have hcne : c ≠ SEP := fun e => ha (by simp [e])
          have hsp : splitSep (c :: cs) = (c :: cs.takeWhile (· ≠ SEP)) :: (splitSep (c :: cs)).tail := by
            rw [splitSep]
            simp only [hcne, if_false]
            have : ∀ l : Bytes, splitSep l = (l.takeWhile (· ≠ SEP)) :: (splitSep l).tail := by
              intro l
              induction l with
              | nil => simp [splitSep]
              | cons x xs ih =>
                by_cases hx : x = SEP
                · simp [splitSep, hx]
                · rw [splitSep, if_neg hx, ih]
                  simp [hx]
            rw [this cs]
            simp
          unfold components at hcf
          rw [hsp, List.filter_cons] at hcf
          simp at hcf

theorem pieces_mem {content p : Bytes} (hp : p ∈ pieces content) {x : Nat} (hx : x ∈ p) :
    x ∈ content := by
  induction content generalizing p with
  | nil => simp [pieces] at hp; subst hp; cases hx
  | cons c cs ih =>
    rw [pieces] at hp
    split at hp
    · rcases List.mem_cons.1 hp with h | h
      · subst h; cases hx
      · exact List.mem_cons_of_mem _ (ih h hx)
    · split at hp
      · rename_i q qs hq
        rcases List.mem_cons.1 hp with h | h
        · subst h
          rcases List.mem_cons.1 hx with h | h
          · simp [h]
          · exact List.mem_cons_of_mem _ (ih (by rw [hq]; simp) h)
        · exact List.mem_cons_of_mem _ (ih (by rw [hq]; simp [h]) hx)
      · simp at hp; subst hp; simp at hx; simp [hx]

theorem textLines_mem {content t : Bytes} (ht : t ∈ textLines content) {x : Nat} (hx : x ∈ t) :
    x ∈ content := by
  unfold textLines at ht
  obtain ⟨p, hp, rfl⟩ := List.mem_map.1 ht
  have hp' : p ∈ pieces content := by
    split at hp
    · exact (List.dropLast_sublist _).subset hp
    · exact hp
  exact pieces_mem hp' ((List.mem_filter.1 hx).1)

/-- The keyword lines of a text have names that do not start with INCLUDE, and their length is not
problematic (`HeaderOk`). -/
def NoIncludes (texts : List Bytes) : Prop :=
  ∀ t ∈ texts, ∀ v, visible t = some v → isHeader v = true →
    HeaderOk t ∧ ¬ bs "INCLUDE" <+: headerName v

theorem parseTop_plain (w : World) (cfg : Config) (depth : Nat) (file content : Bytes)
    (hfile : w.content file = some content) (hcwd : w.cwd.head? = some SEP)
    (h0 : 0 ∉ content)
    (hm : (∀ i, w.mem i ≠ charNewline) ∨ content.length < chunkSize)
    (hs : ¬ chunkSize ∣ content.length)
    (hinc : NoIncludes (textLines content)) :
    parseTop w cfg (depth + 1) file =
      .ok { paths := w.cwd :: cfg.extraPaths, events := restCalls [] 0 (textLines content) } := by
  obtain ⟨root, hroot⟩ := rootFolder_ok w file hcwd
  unfold parseTop
  rw [hfile]
  simp only
  rw [hroot]
  simp only [Res.bind_ok, parseFile, hfile]
  rw [c41_lines_partial (by decide) hm hs]
  simp only [Res.bind_ok]
  have hp : Plain (textLines content) :=
    ⟨fun t ht hx => h0 (textLines_mem ht hx), fun t ht v hv hh => (hinc t ht v hv hh).1,
      fun t ht v hv hh => (hinc t ht v hv hh).2⟩
  obtain ⟨l', s', h1, h2⟩ := linesLoop_plain w cfg root (parseFile w cfg root depth) file
    (textLines content) hp {} { paths := w.cwd :: cfg.extraPaths } (by decide) (by decide) rfl
  rw [h1]
  simp only [Res.bind_ok]
  rw [h2]
  simp

/-- C43, proved part, for files without INCLUDE keywords: the callback is called exactly once for
every card, in file order, with the name of the keyword it belongs to (the empty name for cards in
front of the first keyword) and with the indices 0, 1, ... within the keyword; once without card for
a keyword without cards; never for comment lines or for anything behind `*END`. There are no
errors and no warnings.
Missing: INCLUDE keywords (see `c43_calls_well_formed` and C53), files without any
keyword and card (`c43_empty_file`), keywords with an empty name, the keyword lines excluded by
`HeaderOk` (`c43_long_header_ub`), files with NUL characters, and the files excluded in C41. -/
theorem c43_callbacks_partial (w : World) (cfg : Config) (depth : Nat) (file content : Bytes)
    (hfile : w.content file = some content) (hcwd : w.cwd.head? = some SEP)
    (h0 : 0 ∉ content)
    (hm : (∀ i, w.mem i ≠ charNewline) ∨ content.length < chunkSize)
    (hs : ¬ chunkSize ∣ content.length)
    (hinc : NoIncludes (textLines content))
    (hn : ∀ b ∈ blocksOf (countedLines (textLines content)), b.name ≠ [])
    (hsome : cardsOf (countedLines (textLines content)) ≠ [] ∨ ¬ NoHeader (textLines content)) :
    ∃ s, parseTop w cfg (depth + 1) file = .ok s ∧ s.errors = [] ∧ s.warnings = [] ∧
      s.events = cardCalls [] 0 (cardsOf (countedLines (textLines content))) ++
        (blocksOf (countedLines (textLines content))).flatMap blockCalls := by
  refine ⟨_, parseTop_plain w cfg depth file content hfile hcwd h0 hm hs hinc, rfl, rfl, ?_⟩
  simp only
  rw [restCalls_eq _ hn, if_neg, List.append_nil]
  rintro ⟨_, h2, h3⟩
  rcases h3 with h3 | h3
  · exact h3 rfl
  · rcases hsome with h | h
    · exact h h2
    · exact h h3

/-- C43 fails for files without keywords and cards: the callback is called once with an empty
keyword name. -/
theorem c43_empty_file (w : World) (cfg : Config) (depth : Nat) (file : Bytes)
    (hfile : w.content file = some (bs "$ only a comment\n")) (hcwd : w.cwd.head? = some SEP) :
    parseTop w cfg (depth + 1) file =
      .ok { paths := w.cwd :: cfg.extraPaths, events := [⟨[], none, none⟩] } := by
  rw [parseTop_plain w cfg depth file _ hfile hcwd (by decide +kernel) (.inr (by decide +kernel))
    (by decide +kernel)]
  · congr 2
  · intro t ht v hv hh
    have hl : textLines (bs "$ only a comment\n") = [bs "$ only a comment"] := by decide +kernel
    rw [hl] at ht
    simp only [List.mem_singleton] at ht
    subst ht
    have hvn : visible (bs "$ only a comment") = none := by decide +kernel
    rw [hvn] at hv; cases hv

/-- The excluded keyword lines of C43: with two blanks in front of the '*' and a length of 82
characters the copy of the name has a negative size. -/
theorem c43_long_header_ub :
    keywordName (bs "  *" ++ List.replicate 79 65) = .ub := by decide +kernel

-- non-vacuity of C43 (test)
def sampleText : Bytes :=
  bs "$ head\n*NODE $ c\n   1  2.0\n$ x\n 2 3.0 $ y\n  *PART\n*SET_NODE\n1\n*END\n*NODE\n5\n"

example : 0 ∉ sampleText ∧ sampleText.length < chunkSize ∧ ¬ chunkSize ∣ sampleText.length ∧
    countedLines (textLines sampleText) = [bs "*NODE ", bs "   1  2.0", bs " 2 3.0 ", bs "  *PART",
      bs "*SET_NODE", bs "1"] ∧
    (blocksOf (countedLines (textLines sampleText))) = [⟨bs "NODE", [bs "   1  2.0", bs " 2 3.0 "]⟩,
      ⟨bs "PART", []⟩, ⟨bs "SET_NODE", [bs "1"]⟩] := by
  refine ⟨by decide +kernel, by decide +kernel, by decide +kernel, by decide +kernel,
    by decide +kernel⟩

example : NoIncludes (textLines sampleText) := by
  have h : ∀ t ∈ textLines sampleText, t.length < 82 ∧
      (match visible t with
        | some v => !(bs "INCLUDE").isPrefixOf (headerName v)
        | none => true) = true := by decide +kernel
  intro t ht v hv _
  obtain ⟨h1, h2⟩ := h t ht
  refine ⟨.inl h1, ?_⟩
  rw [hv] at h2
  rw [← List.isPrefixOf_iff_prefix]
  simp only [Bool.not_eq_true'] at h2
  rw [h2]; decide

/-! ## All files -/

theorem _root_.Dyna.FileEvents.append {a b : List Keyword} {ea eb : List KeyEvent} (h1 : FileEvents a ea)
    (h2 : FileEvents b eb) : FileEvents (a ++ b) (ea ++ eb) := by
  induction h1 with
  | nil => simpa using h2
  | cons hb _ ih => rw [List.append_assoc, List.cons_append]; exact .cons hb ih

theorem _root_.Dyna.FileEvents.single {b : Keyword} {e : List KeyEvent} (h : BlockEvents b e) :
    FileEvents [b] e := by
  have := FileEvents.cons h .nil
  simpa using this

/-- The calls `evs` are those of complete keywords. -/
def Complete (evs : List KeyEvent) : Prop := ∃ bl, FileEvents bl evs

theorem Complete.append {a b : List KeyEvent} (h1 : Complete a) (h2 : Complete b) :
    Complete (a ++ b) := by
  obtain ⟨x, hx⟩ := h1
  obtain ⟨y, hy⟩ := h2
  exact ⟨_, hx.append hy⟩

theorem complete_none (name : Bytes) : Complete [⟨name, none, none⟩] :=
  ⟨[⟨name, []⟩], .single (.inl ⟨rfl, rfl⟩)⟩

theorem complete_some (name c : Bytes) : Complete [⟨name, some c, none⟩] :=
  ⟨[⟨name, [c]⟩], .single (.inr (.inr ⟨c, rfl, rfl⟩))⟩

theorem complete_cards (name : Bytes) (cs : List Bytes) : Complete (cardCalls name 0 cs) := by
  cases cs with
  | nil => exact ⟨[], .nil⟩
  | cons c cs =>
    refine ⟨[⟨name, c :: cs⟩], .single (.inr (.inl ⟨by simp, ?_⟩))⟩
    unfold cardCalls; simp

/-- The keywords whose cards are not reported while includes are parsed. -/
def Swallows (cfg : Config) (name : Bytes) : Prop :=
  cfg.parseIncludes = true ∧ (name = bs "INCLUDE" ∨ name = bs "INCLUDE_BINARY" ∨
    name = bs "INCLUDE_NASTRAN" ∨ name = bs "INCLUDE_PATH" ∨ name = bs "INCLUDE_PATH_RELATIVE")

/-- What holds between two lines: the calls so far are those of complete keywords and of the cards
of the current one. -/
def Between' (cfg : Config) (base : List KeyEvent) (l : Local) (s : Shared) : Prop :=
  ∃ flat cs, Complete flat ∧ s.events = base ++ flat ++ cardCalls l.name 0 cs ∧
    (¬ Swallows cfg l.name → cs.length = l.cardIndex) ∧ (Swallows cfg l.name → cs = [])

theorem cardCalls_snoc (name : Bytes) (cs : List Bytes) (c : Bytes) :
    cardCalls name 0 (cs ++ [c]) = cardCalls name 0 cs ++ [⟨name, some c, some cs.length⟩] := by
  unfold cardCalls; rw [List.mapIdx_append]; simp

theorem report_between {cfg : Config} {base : List KeyEvent} {l : Local} {s : Shared}
    (hsw : ¬ Swallows cfg l.name) (h : Between' cfg base l s) (text : Bytes) :
    Between' cfg base (report l s text).1 (report l s text).2 := by
  obtain ⟨flat, cs, h1, h2, h3, h4⟩ := h
  unfold report
  refine ⟨flat, cs ++ [match l.pending with | some t => pendingText t | none => text], h1, ?_, ?_, ?_⟩
  · simp only [Shared.emit]
    rw [h2, cardCalls_snoc, h3 hsw]
    cases l.pending <;> simp
  · intro _; simp [h3 hsw]
  · intro hs; exact absurd hs hsw

theorem bind_ok_inv {α β : Type} {r : Res α} {f : α → Res β} {b : β} (h : (r >>= f) = .ok b) :
    ∃ a, r = .ok a ∧ f a = .ok b := by
  cases r with
  | ok a => exact ⟨a, rfl, h⟩
  | err => cases h
  | ub => cases h
  | abort => cases h

theorem multiReport_between {cfg : Config} {base : List KeyEvent} {l l' : Local} {s s' : Shared}
    {cells : Bytes} (hsw : ¬ Swallows cfg l.name) (h : Between' cfg base l s)
    (hr : multiReport l s cells = .ok (l', s')) : Between' cfg base l' s' := by
  unfold multiReport at hr
  obtain ⟨m, _, h2⟩ := bind_ok_inv hr
  cases m with
  | more t => cases h2; exact h
  | done t =>
    cases h2
    exact report_between (l := { l with pending := none }) hsw h t

theorem warn_events {s s' : Shared} {m : Bytes} (h : s.warn m = .ok s') : s'.events = s.events := by
  unfold Shared.warn at h
  obtain ⟨x, _, h2⟩ := bind_ok_inv h
  cases h2; rfl

theorem error_events {s s' : Shared} {m : Bytes} (h : s.error m = .ok s') :
    s'.events = s.events := by
  unfold Shared.error at h
  obtain ⟨x, _, h2⟩ := bind_ok_inv h
  cases h2; rfl

/-- The recursive call appends the calls of complete keywords. -/
def Appends (inc : Bytes → Shared → Res Shared) : Prop :=
  ∀ f s s', inc f s = .ok s' → ∃ evs, Complete evs ∧ s'.events = s.events ++ evs

theorem includeFile_appends {w : World} {cfg : Config} {inc : Bytes → Shared → Res Shared}
    (hinc : Appends inc) {file name : Bytes} {line : Nat} {s s' : Shared}
    (h : includeFile w cfg inc file line s name = .ok s') :
    ∃ evs, Complete evs ∧ s'.events = s.events ++ evs := by
  unfold includeFile at h
  obtain ⟨r, _, h2⟩ := bind_ok_inv h
  cases r with
  | some f => exact hinc f s s' h2
  | none =>
    simp only at h2
    refine ⟨[], ⟨[], .nil⟩, ?_⟩
    split at h2
    · rw [warn_events h2]; simp
    · rw [error_events h2]; simp

theorem swallow_between {cfg : Config} {base : List KeyEvent} {l : Local} {s s' : Shared}
    {evs : List KeyEvent} (hsw : Swallows cfg l.name) (h : Between' cfg base l s)
    (hc : Complete evs) (he : s'.events = s.events ++ evs) (l' : Local) (hl : l'.name = l.name) :
    Between' cfg base l' s' := by
  obtain ⟨flat, cs, h1, h2, h3, h4⟩ := h
  refine ⟨flat ++ evs, [], h1.append hc, ?_, ?_, fun _ => rfl⟩
  · rw [he, h2, h4 hsw]
    simp [cardCalls]
  · intro hn; rw [hl] at hn; exact absurd hsw hn

theorem includePath_between {w : World} {cfg : Config} {base : List KeyEvent} {l l' : Local}
    {s s' : Shared} {kind file cells : Bytes} {full : Bytes → Res Bytes}
    (hsw : Swallows cfg l.name) (h : Between' cfg base l s)
    (hr : includePath w kind full file l s cells = .ok (l', s')) : Between' cfg base l' s' := by
  unfold includePath at hr
  obtain ⟨m, _, h2⟩ := bind_ok_inv hr
  cases m with
  | more t => cases h2; exact h
  | done name =>
    simp only at h2
    obtain ⟨path, _, h3⟩ := bind_ok_inv h2
    split at h3
    · cases h3
      exact swallow_between hsw h ⟨[], .nil⟩ (by simp) _ rfl
    · obtain ⟨s1, h4, h5⟩ := bind_ok_inv h3
      cases h5
      exact swallow_between hsw h ⟨[], .nil⟩ (by rw [warn_events h4]; simp) _ rfl

theorem superfluous_between {cfg : Config} {base : List KeyEvent} {l l' : Local}
    {s s' : Shared} {kind file : Bytes} {warn : Bool}
    (hsw : Swallows cfg l.name) (h : Between' cfg base l s)
    (hr : superfluous kind warn file l s = .ok (l', s')) : Between' cfg base l' s' := by
  unfold superfluous at hr
  cases warn
  · cases hr
    exact swallow_between hsw h ⟨[], .nil⟩ (by simp) _ rfl
  · simp only [if_true] at hr
    obtain ⟨s1, h1, h2⟩ := bind_ok_inv hr
    cases h2
    exact swallow_between hsw h ⟨[], .nil⟩ (by rw [warn_events h1]; simp) _ rfl

theorem cardStep_between {w : World} {cfg : Config} {root : Bytes}
    {inc : Bytes → Shared → Res Shared} (hinc : Appends inc) {file cells : Bytes}
    {base : List KeyEvent} {l l' : Local} {s s' : Shared} (h : Between' cfg base l s)
    (hr : cardStep w cfg root inc file l s cells = .ok (l', s')) : Between' cfg base l' s' := by
  unfold cardStep at hr
  split at hr
  · split at hr
    · rename_i hpi
      unfold includeCard at hr
      split at hr
      · rename_i hname
        have hsw : Swallows cfg l.name := ⟨hpi, by
          rcases hname with h | ⟨h, _⟩ | ⟨h, _⟩ <;> simp [h]⟩
        obtain ⟨m, _, h2⟩ := bind_ok_inv hr
        cases m with
        | more t => cases h2; exact h
        | done name =>
          simp only at h2
          obtain ⟨s1, h3, h4⟩ := bind_ok_inv h2
          cases h4
          obtain ⟨evs, h5, h6⟩ := includeFile_appends hinc h3
          exact swallow_between hsw h h5 h6 _ rfl
      · rename_i hn1
        split at hr
        · rename_i hn2
          exact includePath_between ⟨hpi, by simp [hn2]⟩ h hr
        · rename_i hn2
          split at hr
          · rename_i hn3
            exact includePath_between ⟨hpi, by simp [hn3]⟩ h hr
          · rename_i hn3
            split at hr
            · rename_i hn4
              exact superfluous_between ⟨hpi, by simp [hn4]⟩ h hr
            · rename_i hn4
              split at hr
              · rename_i hn5
                exact superfluous_between ⟨hpi, by simp [hn5]⟩ h hr
              · rename_i hn5
                have hsw : ¬ Swallows cfg l.name := by
                  rintro ⟨_, h | h | h | h | h⟩
                  · exact hn1 (.inl h)
                  · exact hn4 h
                  · exact hn5 h
                  · exact hn2 h
                  · exact hn3 h
                split at hr
                · have := report_between hsw h (cstr cells)
                  cases hr; exact this
                · split at hr
                  · exact multiReport_between hsw h hr
                  · have := report_between hsw h (cstr cells)
                    cases hr; exact this
    · rename_i hpi
      have hsw : ¬ Swallows cfg l.name := fun h => hpi h.1
      unfold includeCardOff at hr
      split at hr
      · have := report_between hsw h (cstr cells)
        cases hr; exact this
      · split at hr
        · exact multiReport_between hsw h hr
        · have := report_between hsw h (cstr cells)
          cases hr; exact this
  · rename_i hpre
    have hsw : ¬ Swallows cfg l.name := by
      rintro ⟨_, h⟩
      apply hpre
      unfold startsWith
      rcases h with h | h | h | h | h <;> (rw [h]; decide +kernel)
    have := report_between hsw h (cstr cells)
    cases hr; exact this

theorem between_closed {cfg : Config} {base : List KeyEvent} {l : Local} {s : Shared}
    (h : Between' cfg base l s) : ∃ evs, Complete evs ∧ s.events = base ++ evs := by
  obtain ⟨flat, cs, h1, h2, _, _⟩ := h
  exact ⟨_, h1.append (complete_cards l.name cs), by rw [h2, List.append_assoc]⟩

theorem linesLoop_appends {w : World} {cfg : Config} {root : Bytes}
    {inc : Bytes → Shared → Res Shared} (hinc : Appends inc) {file : Bytes}
    {base : List KeyEvent} (lines : List Line) :
    ∀ (l : Local) (s : Shared) (l' : Local) (s' : Shared), Between' cfg base l s →
      linesLoop w cfg root inc file lines l s = .ok (l', s') →
      ∃ evs, Complete evs ∧ (finish l' s').events = base ++ evs := by
  induction lines with
  | nil =>
    intro l s l' s' h hr
    cases hr
    obtain ⟨evs, h1, h2⟩ := between_closed h
    unfold finish
    split
    · cases hp : l.pending with
      | none => exact ⟨_, h1.append (complete_none l.name), by simp [Shared.emit, h2]⟩
      | some t =>
        exact ⟨_, h1.append (complete_some l.name (pendingText t)), by simp [Shared.emit, h2]⟩
    · exact ⟨evs, h1, h2⟩
  | cons line lines ih =>
    intro l s l' s' h hr
    simp only [linesLoop] at hr
    split at hr
    · exact ih { l with lineCount := l.lineCount + 1 } s l' s' h hr
    · split at hr
      · obtain ⟨name, _, h2⟩ := bind_ok_inv hr
        obtain ⟨evs, h3, h4⟩ := between_closed h
        have hclose : ∃ evs, Complete evs ∧
            (closeKeyword { l with lineCount := l.lineCount + 1 } s).events = base ++ evs := by
          unfold closeKeyword
          split
          · exact ⟨_, h3.append (complete_none l.name), by simp [Shared.emit, h4]⟩
          · exact ⟨evs, h3, h4⟩
        obtain ⟨evs', h5, h6⟩ := hclose
        split at h2
        · rename_i hend
          cases h2
          refine ⟨evs', h5, ?_⟩
          unfold finish
          rw [if_neg (fun hx => hx.2 hend)]
          exact h6
        · refine ih _ _ l' s' ?_ h2
          exact ⟨evs', [], h5, by rw [h6]; simp [cardCalls], fun _ => rfl, fun _ => rfl⟩
      · obtain ⟨⟨l1, s1⟩, h1, h2⟩ := bind_ok_inv hr
        exact ih l1 s1 l' s' (cardStep_between hinc (l := { l with lineCount := l.lineCount + 1 })
          h h1) h2

theorem parseFile_appends (w : World) (cfg : Config) (root : Bytes) (depth : Nat) :
    Appends (parseFile w cfg root depth) := by
  induction depth with
  | zero => intro f s s' h; cases h
  | succ d ih =>
    intro f s s' h
    unfold parseFile at h
    cases hc : w.content f with
    | none =>
      rw [hc] at h
      simp only at h
      exact ⟨[], ⟨[], .nil⟩, by rw [error_events h]; simp⟩
    | some content =>
      rw [hc] at h
      simp only at h
      obtain ⟨lines, _, h2⟩ := bind_ok_inv h
      obtain ⟨⟨l', s1⟩, h3, h4⟩ := bind_ok_inv h2
      cases h4
      exact linesLoop_appends ih lines {} s l' s1
        ⟨[], [], ⟨[], .nil⟩, by simp [cardCalls], fun _ => rfl, fun _ => rfl⟩ h3

/-- C43 for every file, with any includes, configuration and content of the file system: the calls
of the callback are those of a sequence of keyword blocks (`FileEvents`). So for every keyword with
cards the indices count 0, 1, ... without gap under the same name, and calls of different keywords
do not interleave, also not those of included files. -/
theorem c43_calls_well_formed (w : World) (cfg : Config) (depth : Nat) (file : Bytes) (s : Shared)
    (h : parseTop w cfg depth file = .ok s) : ∃ blocks, FileEvents blocks s.events := by
  unfold parseTop at h
  cases hc : w.content file with
  | none => rw [hc] at h; cases h; exact ⟨[], .nil⟩
  | some content =>
    rw [hc] at h
    simp only at h
    obtain ⟨root, _, h2⟩ := bind_ok_inv h
    obtain ⟨evs, ⟨bl, h3⟩, h4⟩ := parseFile_appends w cfg root depth file _ s h2
    simp only [List.nil_append] at h4
    rw [h4]
    exact ⟨bl, h3⟩

end Dyna.Key
