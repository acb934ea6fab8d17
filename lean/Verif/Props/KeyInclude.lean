import Verif.Props.KeyParse
/-!
# Property C53 (include files), and C44 for the whole `key_file_parse`
-/

namespace Dyna.Key

/-! ## C44 for whole files -/

/-- C44: for every file, with any includes, configuration and content of the file system: if
`key_file_parse` returns a list, it is sorted by name and consists of the reported keyword blocks
with all their cards, those of the same name in the order in which they were reported. -/
theorem c44_key_file_parse (w : World) (cfg : Config) (depth : Nat) (file : Bytes)
    (ks : List Keyword) (h : keyFileParse w cfg depth file = .ok ks) :
    ∃ s blocks, parseTop w cfg depth file = .ok s ∧ s.errors = [] ∧ FileEvents blocks s.events ∧
      SortedNames (ks.map Keyword.name) ∧ ks.Perm blocks ∧
      ∀ n, ks.filter (fun k => decide (k.name = n)) =
        blocks.filter (fun k => decide (k.name = n)) := by
  unfold keyFileParse at h
  obtain ⟨s, h1, h2⟩ := bind_ok_inv h
  obtain ⟨ks', h3, h4⟩ := bind_ok_inv h2
  obtain ⟨blocks, h5⟩ := c43_calls_well_formed w cfg depth file s h1
  split at h4
  · cases h4
  · rename_i he
    cases h4
    have hno : ∀ a b c, blocks = a ++ b :: c → ¬ Overrun a b := by
      intro a b c e ho
      have := (c44_overrun_ub blocks s.events h5).2 ⟨a, b, c, e, ho⟩
      rw [this] at h3; cases h3
    obtain ⟨ks', h6, h7, h8⟩ := c44_keyword_list_partial blocks s.events h5 hno
    rw [h3] at h6; cases h6
    exact ⟨s, blocks, h1, Classical.not_not.1 he, h5, h7,
      c44_keyword_list_perm blocks s.events h5 ks h3, h8⟩

/-- The keywords of a text: cards in front of the first keyword belong to a keyword with an empty
name. -/
def textBlocks (content : Bytes) : List Keyword :=
  let vs := countedLines (textLines content)
  (if cardsOf vs = [] then [] else [⟨[], cardsOf vs⟩]) ++ blocksOf vs

theorem fileEvents_flatMap (bl : List Keyword) : FileEvents bl (bl.flatMap blockCalls) := by
  induction bl with
  | nil => exact .nil
  | cons b bl ih =>
    rw [List.flatMap_cons]
    refine .cons ?_ ih
    unfold blockCalls
    by_cases h : b.cards = []
    · rw [if_pos h]; exact .inl ⟨h, rfl⟩
    · rw [if_neg h]; refine .inr (.inl ⟨h, ?_⟩); unfold cardCalls; simp

/-- C44 from the text of a file without INCLUDE keywords to the keyword list (hypotheses as in C43;
no keyword occurs more than twice, or more generally no block overruns the list). -/
theorem c44_text_to_list_partial (w : World) (cfg : Config) (depth : Nat) (file content : Bytes)
    (hfile : w.content file = some content) (hcwd : w.cwd.head? = some SEP)
    (h0 : 0 ∉ content)
    (hm : (∀ i, w.mem i ≠ charNewline) ∨ content.length < chunkSize)
    (hs : ¬ chunkSize ∣ content.length)
    (hinc : NoIncludes (textLines content))
    (hn : ∀ b ∈ blocksOf (countedLines (textLines content)), b.name ≠ [])
    (hsome : cardsOf (countedLines (textLines content)) ≠ [] ∨ ¬ NoHeader (textLines content))
    (hno : ∀ earlier b later, textBlocks content = earlier ++ b :: later → ¬ Overrun earlier b) :
    ∃ ks, keyFileParse w cfg (depth + 1) file = .ok ks ∧ SortedNames (ks.map Keyword.name) ∧
      ∀ n, ks.filter (fun k => decide (k.name = n)) =
        (textBlocks content).filter (fun k => decide (k.name = n)) := by
  obtain ⟨s, h1, h2, _, h4⟩ := c43_callbacks_partial w cfg depth file content hfile hcwd h0 hm hs
    hinc hn hsome
  have hev : FileEvents (textBlocks content) s.events := by
    rw [h4]
    unfold textBlocks
    apply FileEvents.append _ (fileEvents_flatMap _)
    by_cases hc : cardsOf (countedLines (textLines content)) = []
    · rw [if_pos hc, hc]; exact .nil
    · rw [if_neg hc]
      refine .single (.inr (.inl ⟨hc, ?_⟩))
      unfold cardCalls; simp
  obtain ⟨ks, h6, h7, h8⟩ := c44_keyword_list_partial _ s.events hev hno
  refine ⟨ks, ?_, h7, h8⟩
  unfold keyFileParse
  rw [h1]
  simp only [Res.bind_ok]
  rw [h6]
  simp only [Res.bind_ok, h2, ne_eq, not_true, if_false]

/-! ## C53: the search -/

/-- C53, the search: for non-empty search paths, the first one in which the file exists is used, and
the search fails only if it exists in none. -/
theorem c53_search (w : World) (paths : List Bytes) (name : Bytes) (hne : ∀ p ∈ paths, p ≠ []) :
    (∃ pre p post f, paths = pre ++ p :: post ∧ pathJoin p name = .ok f ∧ w.isFile f = true ∧
      (∀ q ∈ pre, ∃ g, pathJoin q name = .ok g ∧ w.isFile g = false) ∧
      resolve w paths name = .ok (some f)) ∨
    ((∀ q ∈ paths, ∃ g, pathJoin q name = .ok g ∧ w.isFile g = false) ∧
      resolve w paths name = .ok none) := by
  induction paths with
  | nil => right; exact ⟨fun q hq => (by cases hq), rfl⟩
  | cons p ps ih =>
    obtain ⟨f, hf, _⟩ := pathJoin_components p name (hne p (by simp))
    simp only [resolve]
    rw [hf]
    simp only [Res.bind_ok]
    cases hfile : w.isFile f with
    | true =>
      left
      exact ⟨[], p, ps, f, rfl, hf, hfile, fun q hq => (by cases hq), by simp⟩
    | false =>
      simp only [Bool.false_eq_true, if_false]
      rcases ih (fun q hq => hne q (by simp [hq])) with ⟨pre, q, post, g, h1, h2, h3, h4, h5⟩ | ⟨h1, h2⟩
      · left
        refine ⟨p :: pre, q, post, g, by simp [h1], h2, h3, ?_, h5⟩
        intro r hr
        rcases List.mem_cons.1 hr with h | h
        · subst h; exact ⟨f, hf, hfile⟩
        · exact h4 r h
      · right
        refine ⟨?_, h2⟩
        intro r hr
        rcases List.mem_cons.1 hr with h | h
        · subst h; exact ⟨f, hf, hfile⟩
        · exact h1 r h

/-! ## C53: one include in any state of the parser -/

/-- A file name as it can stand in one line: at least two characters, no NUL and no '$', no '*' at
the start, no blanks around, and not marked as continued. -/
structure GoodName (n : Bytes) : Prop where
  two : 2 ≤ n.length
  nul : 0 ∉ n
  comment : charComment ∉ n
  first : n.head? ≠ some charBlank
  star : n.head? ≠ some charStar
  last : n.getLast? ≠ some charBlank
  plus : n.drop (n.length - 2) ≠ [charBlank, charPlus]

/-- The text of a line with the name between blanks. -/
def padded (k : Nat) (n : Bytes) (m : Nat) : Bytes :=
  List.replicate k charBlank ++ n ++ List.replicate m charBlank

theorem dropWhile_replicate_append (k : Nat) (n : Bytes) (h : n.head? ≠ some charBlank) :
    (List.replicate k charBlank ++ n).dropWhile (· = charBlank) = n := by
  induction k with
  | zero =>
    cases n with
    | nil => rfl
    | cons c cs => simp at h; simp [h]
  | succ k ih => simp [List.replicate_succ] at ih ⊢; exact ih

theorem commentOf_none_iff (t : Bytes) : commentOf t = none ↔ charComment ∉ t := by
  unfold commentOf
  rw [List.findIdx?_eq_none_iff]
  constructor
  · intro h hm; have := h _ hm; simp at this
  · intro h x hx
    simp only [decide_eq_false_iff_not]
    intro e; rw [e] at hx; exact h hx

theorem padded_comment {n : Bytes} (h : GoodName n) (k m : Nat) :
    commentOf (padded k n m) = none := by
  rw [commentOf_none_iff]
  unfold padded
  simp only [List.mem_append, List.mem_replicate, not_or]
  refine ⟨⟨?_, h.comment⟩, ?_⟩ <;> (rintro ⟨_, e⟩; cases e)

theorem padded_notKeyword {n : Bytes} (h : GoodName n) (k m : Nat) :
    isKeyword (padded k n m) = false := by
  unfold isKeyword blanks
  rw [getElem?_takeWhile_length]
  have hn : n ≠ [] := by intro e; have := h.two; rw [e] at this; simp at this
  have hh : (n ++ List.replicate m charBlank).head? = n.head? := by
    cases n with
    | nil => exact absurd rfl hn
    | cons c cs => rfl
  have : (padded k n m).dropWhile (· = charBlank) = n ++ List.replicate m charBlank := by
    unfold padded
    rw [List.append_assoc, dropWhile_replicate_append]
    rw [hh]; exact h.first
  rw [this, hh]
  simp only [decide_eq_false_iff_not]
  exact h.star

theorem trimEnd_padded (n : Bytes) (m : Nat) (h : n.getLast? ≠ some charBlank) :
    trimEnd (n ++ List.replicate m charBlank) = n := by
  unfold trimEnd
  rw [List.reverse_append, List.reverse_replicate, dropWhile_replicate_append, List.reverse_reverse]
  rw [List.head?_reverse]; exact h

theorem cstr_noNul {n : Bytes} (h : 0 ∉ n) : cstr n = n := by
  unfold cstr
  induction n with
  | nil => rfl
  | cons c cs ih =>
    have hc : c ≠ 0 := fun e => h (by simp [e])
    rw [List.takeWhile_cons_of_pos (by simpa using hc), ih (fun e => h (by simp [e]))]

theorem multiLine_padded {n : Bytes} (h : GoodName n) (k m : Nat) :
    multiLine none (padded k n m) = .ok (.done n) := by
  have hn : n ≠ [] := by intro e; have := h.two; rw [e] at this; simp at this
  have hh : (n ++ List.replicate m charBlank).head? = n.head? := by
    cases n with
    | nil => exact absurd rfl hn
    | cons c cs => rfl
  have hd : (padded k n m).dropWhile (· = charBlank) = n ++ List.replicate m charBlank := by
    unfold padded
    rw [List.append_assoc, dropWhile_replicate_append]
    rw [hh]; exact h.first
  simp only [multiLine]
  rw [hd, if_neg (by simp [hn])]
  have htwo := h.two
  unfold multiEnd
  rw [if_neg (by simp only [List.length_append]; omega)]
  rw [if_neg, trimEnd_padded n m h.last, cstr_noNul h.nul]
  intro e
  cases m with
  | zero => simp at e; exact h.plus e
  | succ m =>
    have e2 := congrArg List.getLast? e
    rw [List.getLast?_drop] at e2
    rw [if_neg (by simp only [List.length_append, List.length_replicate]; omega)] at e2
    rw [List.replicate_succ', ← List.append_assoc, List.getLast?_append] at e2
    simp [charBlank, charPlus] at e2

/-- C53, proved part: an INCLUDE with one file name in any state of the parser (`l`, `s`), in any file, with any
lines behind it: the file is looked for in the current search paths, the first existing one is
parsed in place; if there is none an error is reported, or a warning if missing includes are to be
ignored. Then the lines behind it are parsed.
Missing: names of one character (`c53_short_name_ub`), names followed by a comment
(`c53_comment_keeps_blank`), several names and continued names under one keyword, empty search
paths, and names and files so long that the message does not fit into 1024 bytes (`pushF`). -/
theorem c53_include_partial (w : World) (cfg : Config) (root : Bytes) (inc : Bytes → Shared → Res Shared)
    (file : Bytes) (rest : List Line) (l : Local) (s : Shared) (n : Bytes) (k m : Nat)
    (hcfg : cfg.parseIncludes = true) (hn : GoodName n) (hpd : l.pending = none)
    (hpaths : ∀ p ∈ s.paths, p ≠ []) :
    let s1 := closeKeyword l s
    let l1 : Local := ⟨bs "INCLUDE", 1, l.lineCount + 2, none⟩
    let lines := (⟨bs "*INCLUDE", none⟩ : Line) :: ⟨padded k n m, none⟩ :: rest
    (∃ pre p post f, s.paths = pre ++ p :: post ∧ pathJoin p n = .ok f ∧ w.isFile f = true ∧
      (∀ q ∈ pre, ∃ g, pathJoin q n = .ok g ∧ w.isFile g = false) ∧
      linesLoop w cfg root inc file lines l s =
        (do let s2 ← inc f s1; linesLoop w cfg root inc file rest l1 s2)) ∨
    ((∀ q ∈ s.paths, ∃ g, pathJoin q n = .ok g ∧ w.isFile g = false) ∧
      linesLoop w cfg root inc file lines l s =
        (do let s2 ← (if cfg.ignoreNotFound then s1.warn (notFoundMsg file (l.lineCount + 2) n)
              else s1.error (notFoundMsg file (l.lineCount + 2) n))
            linesLoop w cfg root inc file rest l1 s2)) := by
  intro s1 l1 lines
  have hs1 : s1.paths = s.paths := by
    show (closeKeyword l s).paths = s.paths
    unfold closeKeyword; split <;> rfl
  have hloop : linesLoop w cfg root inc file lines l s =
      (do let s2 ← includeFile w cfg inc file (l.lineCount + 2) s1 n
          linesLoop w cfg root inc file rest l1 s2) := by
    show linesLoop w cfg root inc file
      ((⟨bs "*INCLUDE", none⟩ : Line) :: ⟨padded k n m, none⟩ :: rest) l s = _
    have e1 : isKeyword (bs "*INCLUDE") = true := by decide +kernel
    have e2 : keywordName (bs "*INCLUDE") = .ok (bs "INCLUDE") := by decide +kernel
    have e3 : ¬ bs "INCLUDE" = bs "END" := by decide +kernel
    have e4 : startsWith (bs "INCLUDE") (bs "INCLUDE") = true := by decide +kernel
    simp only [linesLoop, lineCells, e1, e2, Res.bind_ok, if_neg e3, reduceCtorEq, if_false, if_true,
      padded_notKeyword hn, Bool.false_eq_true]
    simp only [cardStep, e4, if_true, hcfg, includeCard, true_or]
    rw [hpd, multiLine_padded hn]
    simp only [Res.bind_ok]
    have hcl : closeKeyword (⟨l.name, l.cardIndex, l.lineCount + 1, none⟩ : Local) s = s1 := by
      show _ = closeKeyword l s
      unfold closeKeyword; rfl
    rw [hcl]
    cases hi : includeFile w cfg inc file (l.lineCount + 1 + 1) s1 n <;>
      simp [show l.lineCount + 2 = l.lineCount + 1 + 1 from rfl, hi] <;> rfl
  rw [hloop]
  unfold includeFile
  rw [hs1]
  rcases c53_search w s.paths n hpaths with ⟨pre, p, post, f, h1, h2, h3, h4, h5⟩ | ⟨h1, h2⟩
  · left
    refine ⟨pre, p, post, f, h1, h2, h3, h4, ?_⟩
    rw [h5]; rfl
  · right
    refine ⟨h1, ?_⟩
    rw [h2]; rfl

theorem closeKeyword_paths (l : Local) (s : Shared) : (closeKeyword l s).paths = s.paths := by
  unfold closeKeyword; split <;> rfl

/-- The lines `*INCLUDE_PATH` (or `*INCLUDE_PATH_RELATIVE`) and one directory name, in any state. -/
theorem linesLoop_includePath (w : World) (cfg : Config) (root : Bytes)
    (inc : Bytes → Shared → Res Shared) (file : Bytes) (rest : List Line) (l : Local) (s : Shared)
    (n kind : Bytes) (k m : Nat) (hcfg : cfg.parseIncludes = true) (hn : GoodName n)
    (hpd : l.pending = none)
    (hkind : kind = bs "INCLUDE_PATH" ∨ kind = bs "INCLUDE_PATH_RELATIVE")
    (full : Bytes) (hfull : (if kind = bs "INCLUDE_PATH" then .ok n else pathJoin root n) = .ok full) :
    linesLoop w cfg root inc file
      ((⟨charStar :: kind, none⟩ : Line) :: ⟨padded k n m, none⟩ :: rest) l s =
      (do let s2 ← (if w.isDir full then
              .ok { closeKeyword l s with paths := s.paths ++ [full] }
            else (closeKeyword l s).warn (place file (l.lineCount + 2) ++ kind ++
              bs " has not been found: \"" ++ full ++ bs "\""))
          linesLoop w cfg root inc file rest ⟨kind, 1, l.lineCount + 2, none⟩ s2) := by
  have e1 : isKeyword (charStar :: kind) = true := by
    rcases hkind with h | h <;> (rw [h]; decide +kernel)
  have e2 : keywordName (charStar :: kind) = .ok kind := by
    rcases hkind with h | h <;> (rw [h]; decide +kernel)
  have e3 : ¬ kind = bs "END" := by
    rcases hkind with h | h <;> (rw [h]; decide +kernel)
  have e4 : startsWith kind (bs "INCLUDE") = true := by
    rcases hkind with h | h <;> (rw [h]; decide +kernel)
  have e5 : ¬ (kind = bs "INCLUDE" ∨ (kind = bs "INCLUDE_BINARY" ∧ 0 = 0) ∨
      (kind = bs "INCLUDE_NASTRAN" ∧ 0 = 0)) := by
    rcases hkind with h | h <;> (rw [h]; decide +kernel)
  simp only [linesLoop, lineCells, e1, e2, Res.bind_ok, if_neg e3, reduceCtorEq, if_false, if_true,
    padded_notKeyword hn, Bool.false_eq_true]
  have hcard : ∀ s1 : Shared, cardStep w cfg root inc file
      (⟨kind, 0, l.lineCount + 1 + 1, none⟩ : Local) s1 (padded k n m) =
      (do let s2 ← (if w.isDir full then
              .ok { s1 with paths := s1.paths ++ [full] }
            else s1.warn (place file (l.lineCount + 2) ++ kind ++
              bs " has not been found: \"" ++ full ++ bs "\""))
          .ok (⟨kind, 1, l.lineCount + 2, none⟩, s2)) := by
    intro s1
    unfold cardStep
    rw [if_pos e4, if_pos hcfg]
    unfold includeCard
    rw [if_neg e5]
    have hpath : ∀ (f : Bytes → Res Bytes), f n = .ok full →
        includePath w kind f file (⟨kind, 0, l.lineCount + 1 + 1, none⟩ : Local) s1 (padded k n m) =
      (do let s2 ← (if w.isDir full then
              .ok { s1 with paths := s1.paths ++ [full] }
            else s1.warn (place file (l.lineCount + 2) ++ kind ++
              bs " has not been found: \"" ++ full ++ bs "\""))
          .ok (⟨kind, 1, l.lineCount + 2, none⟩, s2)) := by
      intro f hf
      unfold includePath
      rw [multiLine_padded hn]
      simp only [Res.bind_ok, hf]
      by_cases hd : w.isDir full = true
      · rw [if_pos hd, if_pos hd]; rfl
      · rw [if_neg hd, if_neg hd]
    rcases hkind with h | h
    · rw [if_pos h] at hfull ⊢
      rw [← h]
      exact hpath _ hfull
    · have hne : ¬ kind = bs "INCLUDE_PATH" := by rw [h]; decide +kernel
      rw [if_neg hne] at hfull ⊢
      rw [if_pos h, ← h]
      exact hpath _ hfull
  have hl : (⟨kind, 0, l.lineCount + 1 + 1, l.pending⟩ : Local) =
      ⟨kind, 0, l.lineCount + 1 + 1, none⟩ := by rw [hpd]
  rw [hl, hcard]
  have hcl : closeKeyword (⟨l.name, l.cardIndex, l.lineCount + 1, l.pending⟩ : Local) s =
      closeKeyword l s := rfl
  rw [hcl, closeKeyword_paths]
  split
  · rfl
  · cases (closeKeyword l s).warn (place file (l.lineCount + 2) ++ kind ++
      bs " has not been found: \"" ++ full ++ bs "\"") <;> rfl

/-- C53: `*INCLUDE_PATH` in any state of the parser: an existing directory is added to the end of the
search paths; otherwise there is a warning and the search paths stay as they are. -/
theorem c53_include_path (w : World) (cfg : Config) (root : Bytes)
    (inc : Bytes → Shared → Res Shared) (file : Bytes) (rest : List Line) (l : Local) (s : Shared)
    (n : Bytes) (k m : Nat) (hcfg : cfg.parseIncludes = true) (hn : GoodName n)
    (hpd : l.pending = none) :
    linesLoop w cfg root inc file
      ((⟨bs "*INCLUDE_PATH", none⟩ : Line) :: ⟨padded k n m, none⟩ :: rest) l s =
      (do let s2 ← (if w.isDir n then
              .ok { closeKeyword l s with paths := s.paths ++ [n] }
            else (closeKeyword l s).warn (place file (l.lineCount + 2) ++ bs "INCLUDE_PATH" ++
              bs " has not been found: \"" ++ n ++ bs "\""))
          linesLoop w cfg root inc file rest ⟨bs "INCLUDE_PATH", 1, l.lineCount + 2, none⟩ s2) :=
  linesLoop_includePath w cfg root inc file rest l s n (bs "INCLUDE_PATH") k m hcfg hn hpd (.inl rfl) n
    (by rw [if_pos rfl])

/-- C53: `*INCLUDE_PATH_RELATIVE`: the same with the directory of the main file in front. -/
theorem c53_include_path_relative (w : World) (cfg : Config) (root : Bytes)
    (inc : Bytes → Shared → Res Shared) (file : Bytes) (rest : List Line) (l : Local) (s : Shared)
    (n full : Bytes) (k m : Nat) (hcfg : cfg.parseIncludes = true) (hn : GoodName n)
    (hpd : l.pending = none) (hfull : pathJoin root n = .ok full) :
    linesLoop w cfg root inc file
      ((⟨bs "*INCLUDE_PATH_RELATIVE", none⟩ : Line) :: ⟨padded k n m, none⟩ :: rest) l s =
      (do let s2 ← (if w.isDir full then
              .ok { closeKeyword l s with paths := s.paths ++ [full] }
            else (closeKeyword l s).warn (place file (l.lineCount + 2) ++
              bs "INCLUDE_PATH_RELATIVE" ++ bs " has not been found: \"" ++ full ++ bs "\""))
          linesLoop w cfg root inc file rest
            ⟨bs "INCLUDE_PATH_RELATIVE", 1, l.lineCount + 2, none⟩ s2) :=
  linesLoop_includePath w cfg root inc file rest l s n (bs "INCLUDE_PATH_RELATIVE") k m hcfg hn hpd
    (.inr rfl) full (by rw [if_neg (by decide +kernel)]; exact hfull)

/-! ## C53: the search paths -/

/-- Only directories are added, at the end. -/
def Grown (w : World) (a b : List Bytes) : Prop := ∃ added, b = a ++ added ∧ ∀ p ∈ added, w.isDir p = true

theorem Grown.refl (w : World) (a : List Bytes) : Grown w a a := ⟨[], by simp, by simp⟩
theorem Grown.trans {w : World} {a b c : List Bytes} (h1 : Grown w a b) (h2 : Grown w b c) :
    Grown w a c := by
  obtain ⟨x, rfl, hx⟩ := h1
  obtain ⟨y, rfl, hy⟩ := h2
  refine ⟨x ++ y, by simp, fun p hp => ?_⟩
  rcases List.mem_append.1 hp with h | h
  · exact hx p h
  · exact hy p h

theorem warn_paths {s s' : Shared} {m : Bytes} (h : s.warn m = .ok s') : s'.paths = s.paths := by
  unfold Shared.warn at h
  obtain ⟨x, _, h2⟩ := bind_ok_inv h
  cases h2; rfl

theorem error_paths {s s' : Shared} {m : Bytes} (h : s.error m = .ok s') :
    s'.paths = s.paths := by
  unfold Shared.error at h
  obtain ⟨x, _, h2⟩ := bind_ok_inv h
  cases h2; rfl

def IncGrows (w : World) (inc : Bytes → Shared → Res Shared) : Prop :=
  ∀ f s s', inc f s = .ok s' → Grown w s.paths s'.paths

theorem report_paths (l : Local) (s : Shared) (t : Bytes) : (report l s t).2.paths = s.paths := rfl

theorem multiReport_grown {w : World} {l l' : Local} {s s' : Shared} {cells : Bytes}
    (hr : multiReport l s cells = .ok (l', s')) : Grown w s.paths s'.paths := by
  unfold multiReport at hr
  obtain ⟨m, _, h2⟩ := bind_ok_inv hr
  cases m <;> (cases h2; exact .refl _ _)

theorem includePath_grown {w : World} {l l' : Local}
    {s s' : Shared} {kind file cells : Bytes} {full : Bytes → Res Bytes}
    (hr : includePath w kind full file l s cells = .ok (l', s')) : Grown w s.paths s'.paths := by
  unfold includePath at hr
  obtain ⟨m, _, h2⟩ := bind_ok_inv hr
  cases m with
  | more t => cases h2; exact .refl _ _
  | done name =>
    simp only at h2
    obtain ⟨path, _, h3⟩ := bind_ok_inv h2
    split at h3
    · rename_i hd
      cases h3
      exact ⟨[path], rfl, by simpa using hd⟩
    · obtain ⟨s1, h4, h5⟩ := bind_ok_inv h3
      cases h5
      rw [warn_paths h4]; exact .refl _ _

theorem superfluous_grown {w : World} {l l' : Local}
    {s s' : Shared} {kind file : Bytes} {warn : Bool}
    (hr : superfluous kind warn file l s = .ok (l', s')) : Grown w s.paths s'.paths := by
  unfold superfluous at hr
  cases warn
  · cases hr; exact .refl _ _
  · simp only [if_true] at hr
    obtain ⟨s1, h1, h2⟩ := bind_ok_inv hr
    cases h2
    rw [warn_paths h1]; exact .refl _ _

theorem includeFile_grown {w : World} {cfg : Config} {inc : Bytes → Shared → Res Shared}
    (hinc : IncGrows w inc) {file name : Bytes} {line : Nat} {s s' : Shared}
    (h : includeFile w cfg inc file line s name = .ok s') : Grown w s.paths s'.paths := by
  unfold includeFile at h
  obtain ⟨r, _, h2⟩ := bind_ok_inv h
  cases r with
  | some f => exact hinc f s s' h2
  | none =>
    simp only at h2
    split at h2
    · rw [warn_paths h2]; exact .refl _ _
    · rw [error_paths h2]; exact .refl _ _

theorem cardStep_grown {w : World} {cfg : Config} {root : Bytes}
    {inc : Bytes → Shared → Res Shared} (hinc : IncGrows w inc) {file cells : Bytes}
    {l l' : Local} {s s' : Shared}
    (hr : cardStep w cfg root inc file l s cells = .ok (l', s')) : Grown w s.paths s'.paths := by
  have hrep : ∀ t, (.ok (report l s t) : Res (Local × Shared)) = .ok (l', s') →
      Grown w s.paths s'.paths := by
    intro t h
    cases h
    exact .refl w s.paths
  unfold cardStep at hr
  split at hr
  · split at hr
    · unfold includeCard at hr
      split at hr
      · obtain ⟨m, _, h2⟩ := bind_ok_inv hr
        cases m with
        | more t => cases h2; exact .refl _ _
        | done name =>
          simp only at h2
          obtain ⟨s1, h3, h4⟩ := bind_ok_inv h2
          cases h4
          exact includeFile_grown hinc h3
      · split at hr
        · exact includePath_grown hr
        · split at hr
          · exact includePath_grown hr
          · split at hr
            · exact superfluous_grown hr
            · split at hr
              · exact superfluous_grown hr
              · split at hr
                · exact hrep _ hr
                · split at hr
                  · exact multiReport_grown hr
                  · exact hrep _ hr
    · unfold includeCardOff at hr
      split at hr
      · exact hrep _ hr
      · split at hr
        · exact multiReport_grown hr
        · exact hrep _ hr
  · exact hrep _ hr

theorem linesLoop_grown {w : World} {cfg : Config} {root : Bytes}
    {inc : Bytes → Shared → Res Shared} (hinc : IncGrows w inc) {file : Bytes}
    (lines : List Line) :
    ∀ (l : Local) (s : Shared) (l' : Local) (s' : Shared),
      linesLoop w cfg root inc file lines l s = .ok (l', s') → Grown w s.paths s'.paths := by
  induction lines with
  | nil => intro l s l' s' hr; cases hr; exact .refl _ _
  | cons line lines ih =>
    intro l s l' s' hr
    simp only [linesLoop] at hr
    split at hr
    · exact ih _ s l' s' hr
    · split at hr
      · obtain ⟨name, _, h2⟩ := bind_ok_inv hr
        split at h2
        · cases h2; rw [closeKeyword_paths]; exact .refl _ _
        · have := ih _ _ l' s' h2
          rw [closeKeyword_paths] at this; exact this
      · obtain ⟨⟨l1, s1⟩, h1, h2⟩ := bind_ok_inv hr
        exact (cardStep_grown hinc h1).trans (ih l1 s1 l' s' h2)

theorem finish_paths (l : Local) (s : Shared) : (finish l s).paths = s.paths := by
  unfold finish; split <;> rfl

theorem parseFile_grown (w : World) (cfg : Config) (root : Bytes) (depth : Nat) :
    IncGrows w (parseFile w cfg root depth) := by
  induction depth with
  | zero => intro f s s' h; cases h
  | succ d ih =>
    intro f s s' h
    unfold parseFile at h
    cases hc : w.content f with
    | none =>
      rw [hc] at h
      simp only at h
      rw [error_paths h]; exact .refl _ _
    | some content =>
      rw [hc] at h
      simp only at h
      obtain ⟨lines, _, h2⟩ := bind_ok_inv h
      obtain ⟨⟨l', s1⟩, h3, h4⟩ := bind_ok_inv h2
      cases h4
      rw [finish_paths]
      exact linesLoop_grown ih lines {} s l' s1 h3

/-- C53, the search list: for every file, the list starts with the working directory and the extra
paths of the configuration in their order; behind them there are only existing directories, added
at the end. (`c53_include_path` and `c53_include_path_relative` say which ones.) -/
theorem c53_search_list (w : World) (cfg : Config) (depth : Nat) (file : Bytes) (s : Shared)
    (hopen : (w.content file).isSome = true) (h : parseTop w cfg depth file = .ok s) :
    ∃ added, s.paths = w.cwd :: cfg.extraPaths ++ added ∧ ∀ p ∈ added, w.isDir p = true := by
  unfold parseTop at h
  cases hc : w.content file with
  | none => rw [hc] at hopen; cases hopen
  | some content =>
    rw [hc] at h
    simp only at h
    obtain ⟨root, _, h2⟩ := bind_ok_inv h
    exact parseFile_grown w cfg root depth file _ s h2

/-! ## C53: an included file is parsed like a main file -/

/-- `s` behind what has been reported before. -/
def Shared.behind (base s : Shared) : Shared :=
  ⟨s.paths, base.events ++ s.events, base.errors ++ s.errors, base.warnings ++ s.warnings⟩

/-- The function neither looks at nor changes what has been reported before. -/
def Framed (inc : Bytes → Shared → Res Shared) : Prop :=
  ∀ (base : Shared) f s, inc f (base.behind s) = (do let r ← inc f s; .ok (base.behind r))

theorem pushF_framed (b st : List Bytes) (m : Bytes) :
    pushF (b ++ st) m = (do let r ← pushF st m; .ok (b ++ r)) := by
  unfold pushF; split
  · simp
  · rfl

theorem warn_framed (base s : Shared) (m : Bytes) :
    (base.behind s).warn m = (do let r ← s.warn m; .ok (base.behind r)) := by
  unfold Shared.warn pushF Shared.behind
  by_cases h : m.length < 1024 <;> simp [h]

theorem error_framed (base s : Shared) (m : Bytes) :
    (base.behind s).error m = (do let r ← s.error m; .ok (base.behind r)) := by
  unfold Shared.error pushF Shared.behind
  by_cases h : m.length < 1024 <;> simp [h]

/-- Result of a step with the earlier reports put in front. -/
def front (base : Shared) (r : Res (Local × Shared)) : Res (Local × Shared) := do
  let x ← r
  .ok (x.1, base.behind x.2)

theorem report_framed (base : Shared) (l : Local) (s : Shared) (t : Bytes) :
    (.ok (report l (base.behind s) t) : Res (Local × Shared)) = front base (.ok (report l s t)) := by
  simp [front, report, Shared.emit, Shared.behind]

theorem multiReport_framed (base : Shared) (l : Local) (s : Shared) (cells : Bytes) :
    multiReport l (base.behind s) cells = front base (multiReport l s cells) := by
  unfold multiReport
  cases multiLine l.pending cells with
  | ok m =>
    cases m with
    | more t => rfl
    | done t => simp only [Res.bind_ok]; exact report_framed base _ s t
  | err => rfl
  | ub => rfl
  | abort => rfl

theorem includePath_framed (w : World) (base : Shared) (l : Local) (s : Shared)
    (kind file cells : Bytes) (full : Bytes → Res Bytes) :
    includePath w kind full file l (base.behind s) cells =
      front base (includePath w kind full file l s cells) := by
  unfold includePath
  cases multiLine l.pending cells with
  | ok m =>
    cases m with
    | more t => rfl
    | done t =>
      simp only [Res.bind_ok]
      cases full t with
      | ok path =>
        simp only [Res.bind_ok]
        by_cases hd : w.isDir path = true
        · rw [if_pos hd, if_pos hd]; rfl
        · rw [if_neg hd, if_neg hd, warn_framed]
          generalize s.warn _ = r
          cases r <;> rfl
      | err => rfl
      | ub => rfl
      | abort => rfl
  | err => rfl
  | ub => rfl
  | abort => rfl

theorem superfluous_framed (base : Shared) (l : Local) (s : Shared) (kind file : Bytes)
    (warn : Bool) :
    superfluous kind warn file l (base.behind s) = front base (superfluous kind warn file l s) := by
  unfold superfluous
  cases warn
  · rfl
  · simp only [if_true]
    rw [warn_framed]
    generalize s.warn _ = r
    cases r <;> rfl

theorem includeFile_framed {w : World} {cfg : Config} {inc : Bytes → Shared → Res Shared}
    (hinc : Framed inc) (base s : Shared) (file name : Bytes) (line : Nat) :
    includeFile w cfg inc file line (base.behind s) name =
      (do let r ← includeFile w cfg inc file line s name; .ok (base.behind r)) := by
  unfold includeFile
  have : (base.behind s).paths = s.paths := rfl
  rw [this]
  cases resolve w s.paths name with
  | ok r =>
    cases r with
    | some f => simp only [Res.bind_ok]; exact hinc base f s
    | none =>
      simp only [Res.bind_ok]
      split
      · exact warn_framed base s _
      · exact error_framed base s _
  | err => rfl
  | ub => rfl
  | abort => rfl

theorem cardStep_framed {w : World} {cfg : Config} {root : Bytes}
    {inc : Bytes → Shared → Res Shared} (hinc : Framed inc) (base : Shared) (file cells : Bytes)
    (l : Local) (s : Shared) :
    cardStep w cfg root inc file l (base.behind s) cells =
      front base (cardStep w cfg root inc file l s cells) := by
  unfold cardStep
  split
  · split
    · unfold includeCard
      split
      · cases multiLine l.pending cells with
        | ok m =>
          cases m with
          | more t => rfl
          | done name =>
            simp only [Res.bind_ok]
            rw [includeFile_framed hinc]
            cases includeFile w cfg inc file l.lineCount s name <;> rfl
        | err => rfl
        | ub => rfl
        | abort => rfl
      · split
        · exact includePath_framed w base l s _ _ _ _
        · split
          · exact includePath_framed w base l s _ _ _ _
          · split
            · exact superfluous_framed base l s _ _ _
            · split
              · exact superfluous_framed base l s _ _ _
              · split
                · exact report_framed base l s _
                · split
                  · exact multiReport_framed base l s _
                  · exact report_framed base l s _
    · unfold includeCardOff
      split
      · exact report_framed base l s _
      · split
        · exact multiReport_framed base l s _
        · exact report_framed base l s _
  · exact report_framed base l s _

theorem closeKeyword_framed (base : Shared) (l : Local) (s : Shared) :
    closeKeyword l (base.behind s) = base.behind (closeKeyword l s) := by
  unfold closeKeyword; split
  · simp [Shared.emit, Shared.behind]
  · rfl

theorem linesLoop_framed {w : World} {cfg : Config} {root : Bytes}
    {inc : Bytes → Shared → Res Shared} (hinc : Framed inc) (base : Shared) (file : Bytes)
    (lines : List Line) :
    ∀ (l : Local) (s : Shared), linesLoop w cfg root inc file lines l (base.behind s) =
      front base (linesLoop w cfg root inc file lines l s) := by
  induction lines with
  | nil => intro l s; rfl
  | cons line lines ih =>
    intro l s
    simp only [linesLoop]
    split
    · exact ih _ s
    · split
      · cases keywordName (lineCells line) with
        | ok name =>
          simp only [Res.bind_ok]
          rw [closeKeyword_framed]
          split
          · rfl
          · exact ih _ _
        | err => rfl
        | ub => rfl
        | abort => rfl
      · rw [cardStep_framed hinc]
        generalize cardStep w cfg root inc file _ s _ = r
        cases r with
        | ok x => obtain ⟨l1, s1⟩ := x; exact ih l1 s1
        | err => rfl
        | ub => rfl
        | abort => rfl

theorem finish_framed (base : Shared) (l : Local) (s : Shared) :
    finish l (base.behind s) = base.behind (finish l s) := by
  unfold finish; split
  · simp [Shared.emit, Shared.behind]
  · rfl

theorem parseFile_framed (w : World) (cfg : Config) (root : Bytes) (depth : Nat) :
    Framed (parseFile w cfg root depth) := by
  induction depth with
  | zero => intro base f s; rfl
  | succ d ih =>
    intro base f s
    unfold parseFile
    cases w.content f with
    | none => exact error_framed base s _
    | some content =>
      simp only
      cases fileLines chunkSize w.mem content with
      | ok lines =>
        simp only [Res.bind_ok]
        rw [linesLoop_framed ih]
        cases linesLoop w cfg root (parseFile w cfg root d) f lines {} s with
        | ok x =>
          simp only [front, Res.bind_ok]
          rw [finish_framed]
        | err => rfl
        | ub => rfl
        | abort => rfl
      | err => rfl
      | ub => rfl
      | abort => rfl

/-- C53: the calls, errors and warnings of an included file are those it has when it is parsed with
the same search paths on its own; they are put behind what has been reported before. -/
theorem c53_included_like_main (w : World) (cfg : Config) (root : Bytes) (depth : Nat) (f : Bytes)
    (s r : Shared) (h : parseFile w cfg root depth f { paths := s.paths } = .ok r) :
    parseFile w cfg root depth f s = .ok ⟨r.paths, s.events ++ r.events, s.errors ++ r.errors,
      s.warnings ++ r.warnings⟩ := by
  have := parseFile_framed w cfg root depth s f { paths := s.paths }
  rw [h] at this
  have hs : s.behind { paths := s.paths } = s := by simp [Shared.behind]
  rw [hs] at this
  exact this

/-! ## C53: consequences and limits -/

/-- C53: a file name with an absolute path is still looked for inside of the search paths: the
components of every tried path are those of the search path followed by those of the name. -/
theorem c53_absolute_inside (w : World) (paths : List Bytes) (name f : Bytes)
    (hne : ∀ p ∈ paths, p ≠ []) (h : resolve w paths name = .ok (some f)) :
    ∃ p ∈ paths, components f = components p ++ components name := by
  rcases c53_search w paths name hne with ⟨pre, p, post, g, h1, h2, _, _, h5⟩ | ⟨_, h2⟩
  · rw [h5] at h; cases h
    obtain ⟨r, h6, h7⟩ := pathJoin_components p name (hne p (by rw [h1]; simp))
    rw [h6] at h2; cases h2
    exact ⟨p, by rw [h1]; simp, h7⟩
  · rw [h2] at h; cases h

/-- ... so the existing file "/inc/a.k" is not found from the working directory "/work". -/
theorem c53_absolute_not_found (w : World) (hw : ∀ f, w.isFile f = decide (f = bs "/inc/a.k")) :
    resolve w [bs "/work"] (bs "/inc/a.k") = .ok none := by
  have e : pathJoin (bs "/work") (bs "/inc/a.k") = .ok (bs "/work/inc/a.k") := by decide +kernel
  simp only [resolve, e, Res.bind_ok, hw]
  decide +kernel

/-- The excluded file names: with one character the code reads in front of its buffer. -/
theorem c53_short_name_ub : multiLine none (bs "a") = .ub := by decide +kernel

/-- A comment behind a file name leaves the blanks in front of it in the name. -/
theorem c53_comment_keeps_blank :
    multiLine none (lineCells ⟨bs "a.k $ x", commentOf (bs "a.k $ x")⟩) =
      .ok (.done (bs "a.k ")) := by decide +kernel

/-- A file that includes itself: there is no number of nested calls that is enough. -/
theorem c53_self_include (w : World)
    (hf : ∀ f, w.content f = some (bs "*INCLUDE\na.k\n")) (hi : ∀ f, w.isFile f = true)
    (depth : Nat) (root file : Bytes) (s : Shared) (ps : List Bytes) (hs : s.paths = bs "/w" :: ps) :
    parseFile w {} root depth file s = .abort := by
  induction depth generalizing file s with
  | zero => rfl
  | succ d ih =>
    unfold parseFile
    rw [hf]
    simp only
    rw [c41_small (by decide +kernel) (by decide +kernel)]
    have hl : (textLines (bs "*INCLUDE\na.k\n")).map (fun t => (⟨t, commentOf t⟩ : Line)) =
        [⟨bs "*INCLUDE", none⟩, ⟨bs "a.k", none⟩] := by decide +kernel
    rw [hl]
    have e1 : isKeyword (bs "*INCLUDE") = true := by decide +kernel
    have e2 : keywordName (bs "*INCLUDE") = .ok (bs "INCLUDE") := by decide +kernel
    have e3 : ¬ bs "INCLUDE" = bs "END" := by decide +kernel
    have e4 : startsWith (bs "INCLUDE") (bs "INCLUDE") = true := by decide +kernel
    have e5 : isKeyword (bs "a.k") = false := by decide +kernel
    have e6 : multiLine none (bs "a.k") = .ok (.done (bs "a.k")) := by decide +kernel
    have e7 : pathJoin (bs "/w") (bs "a.k") = .ok (bs "/w/a.k") := by decide +kernel
    simp only [Res.bind_ok, linesLoop, lineCells, e1, e2, if_neg e3, reduceCtorEq, if_false, if_true,
      e5, Bool.false_eq_true, cardStep, e4, includeCard, true_or, e6, includeFile,
      closeKeyword_paths, hs, resolve, e7, hi]
    rw [ih (bs "/w/a.k") _ (by rw [closeKeyword_paths, hs])]
    rfl

-- non-vacuity of C53 (test): a main file including b.k from the second directory
example : GoodName (bs "b.k") :=
  ⟨by decide +kernel, by decide +kernel, by decide +kernel, by decide +kernel, by decide +kernel,
    by decide +kernel, by decide +kernel⟩

/-- A small file system (test). -/
def sampleWorld : World where
  content f := if f = bs "/w/main.k" then some (bs "*NODE\n1\n*INCLUDE_PATH\n/inc\n*INCLUDE\n  b.k \nc.k\n*PART\n")
    else if f = bs "/inc/b.k" then some (bs "*SET\n7\n8\n") else none
  openError := bs "?"
  isFile f := decide (f = bs "/w/main.k" ∨ f = bs "/inc/b.k")
  isDir f := decide (f = bs "/inc" ∨ f = bs "/w")
  cwd := bs "/w"
  mem := fun _ => 0

example : parseTop sampleWorld {} 3 (bs "/w/main.k") = .ok
    { paths := [bs "/w", bs "/inc"],
      events := [⟨bs "NODE", some (bs "1"), some 0⟩, ⟨bs "SET", some (bs "7"), some 0⟩,
        ⟨bs "SET", some (bs "8"), some 1⟩, ⟨bs "PART", none, none⟩],
      errors := [bs "/w/main.k:7: \"c.k\" could not be found"] } := by
  decide +kernel

end Dyna.Key
