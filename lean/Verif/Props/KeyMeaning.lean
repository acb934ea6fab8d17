import Verif.Props.KeyInclude
/-!
# Property C68: what parsing a key file with its include files reports

The specification (`Means`) says what a file means in terms of its lines, its keywords and the file
system. It does not mention the states of the parser.
-/

namespace Dyna.Key

/-! ## Specification: the keywords of a file -/

/-- The text of a line in front of a comment. -/
def cut (t : Bytes) : Bytes := t.takeWhile (· ≠ charComment)

/-- The lines of a file that are not comments, with their numbers; the next line has the number
`n`. -/
def numberedFrom (n : Nat) : List Bytes → List (Nat × Bytes)
  | [] => []
  | t :: ts => if t.head? = some charComment then numberedFrom (n + 1) ts
      else (n, t) :: numberedFrom (n + 1) ts

/-- A keyword of a file and its cards with their line numbers. -/
structure Block where
  name : Bytes
  cards : List (Nat × Bytes)
deriving DecidableEq

/-- The lines in front of the next keyword line. -/
def nextCards (xs : List (Nat × Bytes)) : List (Nat × Bytes) :=
  xs.takeWhile (fun x => !isHeader (cut x.2))

/-- The keywords up to `*END`. -/
def numberedBlocks : List (Nat × Bytes) → List Block
  | [] => []
  | x :: xs =>
    if isEnd (cut x.2) then []
    else if isHeader (cut x.2) then ⟨headerName (cut x.2), nextCards xs⟩ :: numberedBlocks xs
    else numberedBlocks xs

/-- The keywords of a file; cards in front of the first keyword belong to a keyword with an empty
name. -/
def fileBlocks (content : Bytes) : List Block :=
  let xs := numberedFrom 1 (textLines content)
  (if nextCards xs = [] then [] else [⟨[], nextCards xs⟩]) ++ numberedBlocks xs

/-- A file that is read without undefined behaviour and without the deviations of C41 and C43. -/
structure Readable (w : World) (content : Bytes) : Prop where
  nul : 0 ∉ content
  mem : (∀ i, w.mem i ≠ charNewline) ∨ content.length < chunkSize
  size : ¬ chunkSize ∣ content.length
  header : ∀ t ∈ textLines content, isHeader (cut t) = true →
    t.head? ≠ some charComment → HeaderOk t ∧ headerName (cut t) ≠ []

/-! ## Specification: file names -/

/-- Blanks at both ends removed. -/
def trimmed (t : Bytes) : Bytes := trimEnd (t.dropWhile (· = charBlank))

/-- The mark of a continued line. -/
def contMark : Bytes := [charBlank, charPlus]

/-- The cards `cards` make up one file name `name`; the last of them is line `line`. All cards but
the last end with " +". Blanks around the name do not count, except those between the name and a
comment. A line of blanks is an empty name. Names of one character are not covered
(`c53_short_name_ub`). -/
inductive IsName : List (Nat × Bytes) → Nat → Bytes → Prop
  | blank (line k : Nat) : IsName [(line, List.replicate k charBlank)] line []
  | name (conts : List (Nat × Bytes)) (line : Nat) (last : Bytes)
      (hconts : ∀ c ∈ conts, charComment ∉ c.2)
      (hlast : last.drop (last.length - 2) ≠ contMark)
      (htwo : 2 ≤ last.length)
      (hfirst : 2 ≤ (((conts.map Prod.snd ++ [last]).headD []).dropWhile (· = charBlank)).length) :
      IsName (conts.map (fun c => (c.1, c.2 ++ contMark)) ++ [(line, last)]) line
        (if charComment ∈ last then
          (conts.flatMap Prod.snd ++ cut last).dropWhile (· = charBlank)
        else trimmed (conts.flatMap Prod.snd ++ last))

/-- The cards `cards` are file names: the names with the numbers of their last lines. -/
inductive Names : List (Nat × Bytes) → List (Nat × Bytes) → Prop
  | nil : Names [] []
  | cons {c cs : List (Nat × Bytes)} {line : Nat} {n : Bytes} {ns : List (Nat × Bytes)} :
      IsName c line n → Names cs ns → Names (c ++ cs) ((line, n) :: ns)

/-- The file `full` is the first existing one if the directories `paths` are searched. -/
def Found (w : World) (paths : List Bytes) (name full : Bytes) : Prop :=
  ∃ pre p post, paths = pre ++ p :: post ∧ pathJoin p name = .ok full ∧ w.isFile full = true ∧
    ∀ q ∈ pre, ∃ g, pathJoin q name = .ok g ∧ w.isFile g = false

/-- There is no such file in the directories `paths`. -/
def NotFound (w : World) (paths : List Bytes) (name : Bytes) : Prop :=
  ∀ q ∈ paths, ∃ g, pathJoin q name = .ok g ∧ w.isFile g = false

/-! ## Specification: the meaning of a file -/

/-- The message for a directory that does not exist. -/
def noDirMsg (file : Bytes) (line : Nat) (kind dir : Bytes) : Bytes :=
  file ++ bs ":" ++ dec line ++ bs ": " ++ kind ++ bs " has not been found: \"" ++ dir ++ bs "\""

/-- The message for a superfluous card; `count` is the number of cards up to it. -/
def extraCardMsg (file : Bytes) (line : Nat) (kind : Bytes) (count : Nat) : Bytes :=
  file ++ bs ":" ++ dec line ++ bs ": Invalid number of cards (" ++ dec count ++ bs ") for " ++ kind ++
    bs " keyword"

/-- The message for a file that does not exist. -/
def noFileMsg (file : Bytes) (line : Nat) (name : Bytes) : Bytes :=
  file ++ bs ":" ++ dec line ++ bs ": \"" ++ name ++ bs "\" could not be found"

/-- The message for a file that cannot be opened. -/
def openMsg (w : World) : Bytes := bs "Failed to open key file: " ++ w.openError

/-- The keywords whose cards the parser handles itself if includes are parsed. -/
def handled : List Bytes :=
  [bs "INCLUDE", bs "INCLUDE_BINARY", bs "INCLUDE_NASTRAN", bs "INCLUDE_PATH",
    bs "INCLUDE_PATH_RELATIVE"]

/-- The keyword's cards are reported to the callback with the texts `texts`. -/
inductive Reported (cfg : Config) : Block → List Bytes → Prop
  /-- All keywords that do not start with INCLUDE (and INCLUDE_MULTISCALE): each card without
  comment. -/
  | plain {b : Block} (h : ¬ bs "INCLUDE" <+: b.name ∨ bs "INCLUDE_MULTISCALE" <+: b.name) :
      Reported cfg b (b.cards.map fun c => cut c.2)
  /-- Includes are not parsed: the file names. -/
  | names {b : Block} {ns : List (Nat × Bytes)} (hcfg : cfg.parseIncludes = false)
      (hname : b.name = bs "INCLUDE" ∨ b.name = bs "INCLUDE_PATH" ∨
        b.name = bs "INCLUDE_PATH_RELATIVE")
      (h : Names b.cards ns) : Reported cfg b (ns.map Prod.snd)
  /-- The other INCLUDE keywords: the file name, then the other cards without comments. -/
  | first {b : Block} {c more : List (Nat × Bytes)} {line : Nat} {n : Bytes}
      (hpre : bs "INCLUDE" <+: b.name) (hms : ¬ bs "INCLUDE_MULTISCALE" <+: b.name)
      (hother : b.name ∉ handled ∨ (cfg.parseIncludes = false ∧
        (b.name = bs "INCLUDE_BINARY" ∨ b.name = bs "INCLUDE_NASTRAN")))
      (hcards : b.cards = c ++ more) (h : IsName c line n) :
      Reported cfg b (n :: more.map fun c => cut c.2)

/-- What can have a meaning: a file, keywords of the file `f`, one keyword of it, and file names
that are included from it. -/
inductive Task where
  | file (f : Bytes)
  | blocks (f : Bytes) (blocks : List Block)
  | block (f : Bytes) (b : Block)
  | includes (f : Bytes) (ns : List (Nat × Bytes))

/-- The meaning: parsing with the search paths `paths` results in the new search paths and gives
the calls, errors and warnings (`o.behind o'`: first `o`, then `o'`, whose search paths remain). -/
inductive Means (w : World) (cfg : Config) (root : Bytes) : Task → List Bytes → Shared → Prop
  | unreadable {f : Bytes} {ps : List Bytes} (h : w.content f = none)
      (hlen : (openMsg w).length < 1024) :
      Means w cfg root (.file f) ps { paths := ps, errors := [openMsg w] }
  /-- A file means what its keywords mean, one after the other. -/
  | file {f content : Bytes} {ps : List Bytes} {o : Shared} (h : w.content f = some content)
      (hr : Readable w content) (hsome : fileBlocks content ≠ [] ∨ ¬ NoHeader (textLines content))
      (hm : Means w cfg root (.blocks f (fileBlocks content)) ps o) :
      Means w cfg root (.file f) ps o
  /-- A file without keywords and cards is reported as a keyword without name. -/
  | empty {f content : Bytes} {ps : List Bytes} (h : w.content f = some content)
      (hr : Readable w content) (hb : fileBlocks content = []) (hn : NoHeader (textLines content)) :
      Means w cfg root (.file f) ps { paths := ps, events := [⟨[], none, none⟩] }
  | nil {f : Bytes} {ps : List Bytes} : Means w cfg root (.blocks f []) ps { paths := ps }
  | cons {f : Bytes} {b : Block} {rest : List Block} {ps : List Bytes} {o o' : Shared}
      (h : Means w cfg root (.block f b) ps o)
      (h' : Means w cfg root (.blocks f rest) o.paths o') :
      Means w cfg root (.blocks f (b :: rest)) ps (o.behind o')
  /-- A keyword without cards. -/
  | noCards {f name : Bytes} {ps : List Bytes} :
      Means w cfg root (.block f ⟨name, []⟩) ps { paths := ps, events := [⟨name, none, none⟩] }
  | reported {f : Bytes} {b : Block} {ps : List Bytes} {texts : List Bytes} (hne : b.cards ≠ [])
      (h : Reported cfg b texts) :
      Means w cfg root (.block f b) ps { paths := ps, events := cardCalls b.name 0 texts }
  /-- INCLUDE: every file name is included, nothing is reported for the cards themselves. -/
  | includes {f : Bytes} {b : Block} {ns : List (Nat × Bytes)} {ps : List Bytes} {o : Shared}
      (hcfg : cfg.parseIncludes = true) (hname : b.name = bs "INCLUDE") (hne : b.cards ≠ [])
      (hn : Names b.cards ns) (h : Means w cfg root (.includes f ns) ps o) :
      Means w cfg root (.block f b) ps o
  /-- INCLUDE_BINARY: one file name; a warning for every other card. -/
  | binary {f : Bytes} {b : Block} {c more : List (Nat × Bytes)} {line : Nat} {n : Bytes}
      {ps : List Bytes} {o : Shared} (hcfg : cfg.parseIncludes = true)
      (hname : b.name = bs "INCLUDE_BINARY") (hcards : b.cards = c ++ more) (hn : IsName c line n)
      (h : Means w cfg root (.includes f [(line, n)]) ps o)
      (hlen : ∀ m ∈ more.mapIdx (fun i x => extraCardMsg f x.1 b.name (i + 2)), m.length < 1024) :
      Means w cfg root (.block f b) ps (o.behind
        { paths := o.paths, warnings := more.mapIdx fun i x => extraCardMsg f x.1 b.name (i + 2) })
  /-- INCLUDE_NASTRAN: one file name and one more card; a warning for every other card. -/
  | nastran {f : Bytes} {b : Block} {c more : List (Nat × Bytes)} {line : Nat} {n : Bytes}
      {ps : List Bytes} {o : Shared} (hcfg : cfg.parseIncludes = true)
      (hname : b.name = bs "INCLUDE_NASTRAN") (hcards : b.cards = c ++ more) (hn : IsName c line n)
      (h : Means w cfg root (.includes f [(line, n)]) ps o)
      (hlen : ∀ m ∈ (more.drop 1).mapIdx (fun i x => extraCardMsg f x.1 b.name (i + 3)),
        m.length < 1024) :
      Means w cfg root (.block f b) ps (o.behind
        { paths := o.paths,
          warnings := (more.drop 1).mapIdx fun i x => extraCardMsg f x.1 b.name (i + 3) })
  /-- INCLUDE_PATH and INCLUDE_PATH_RELATIVE: existing directories are added to the search paths,
  a warning for every other one. -/
  | path {f : Bytes} {b : Block} {ns : List (Nat × Bytes)} {dirs : List (Nat × Bytes)}
      {ps : List Bytes} (hcfg : cfg.parseIncludes = true) (hne : b.cards ≠ [])
      (hn : Names b.cards ns)
      (hdirs : (b.name = bs "INCLUDE_PATH" ∧ dirs = ns) ∨
        (b.name = bs "INCLUDE_PATH_RELATIVE" ∧
          dirs.map Prod.fst = ns.map Prod.fst ∧
          ns.map (fun n => pathJoin root n.2) = dirs.map (fun d => .ok d.2)))
      (hlen : ∀ d ∈ dirs, w.isDir d.2 = false → (noDirMsg f d.1 b.name d.2).length < 1024) :
      Means w cfg root (.block f b) ps
        { paths := ps ++ (dirs.filter fun d => w.isDir d.2).map Prod.snd,
          warnings := (dirs.filter fun d => !w.isDir d.2).map fun d =>
            noDirMsg f d.1 b.name d.2 }
  | done {f : Bytes} {ps : List Bytes} : Means w cfg root (.includes f []) ps { paths := ps }
  /-- An included file is parsed at its place, with the current search paths. -/
  | found {f : Bytes} {line : Nat} {n full : Bytes} {ns : List (Nat × Bytes)} {ps : List Bytes}
      {o o' : Shared} (hf : Found w ps n full) (h : Means w cfg root (.file full) ps o)
      (h' : Means w cfg root (.includes f ns) o.paths o') :
      Means w cfg root (.includes f ((line, n) :: ns)) ps (o.behind o')
  /-- A missing file is an error or a warning. -/
  | notFound {f : Bytes} {line : Nat} {n : Bytes} {ns : List (Nat × Bytes)} {ps : List Bytes}
      {o' : Shared} (hf : NotFound w ps n) (hlen : (noFileMsg f line n).length < 1024)
      (h' : Means w cfg root (.includes f ns) ps o') :
      Means w cfg root (.includes f ((line, n) :: ns)) ps
        (({ paths := ps
            errors := if cfg.ignoreNotFound then [] else [noFileMsg f line n]
            warnings := if cfg.ignoreNotFound then [noFileMsg f line n] else [] } : Shared).behind o')

/-! ## The loop over the lines that are not comments -/

theorem cardStep_local {w : World} {cfg : Config} {root : Bytes} {inc : Bytes → Shared → Res Shared}
    {file cells : Bytes} {l l' : Local} {s s' : Shared}
    (hr : cardStep w cfg root inc file l s cells = .ok (l', s')) :
    l'.lineCount = l.lineCount := by
  have hrep : ∀ (l : Local) t, .ok (report l s t) = (.ok (l', s') : Res (Local × Shared)) →
      l'.lineCount = l.lineCount := by
    intro l t h; simp only [report, Res.ok.injEq, Prod.mk.injEq] at h; rw [← h.1]
  have hmr : multiReport l s cells = .ok (l', s') → l'.lineCount = l.lineCount := by
    intro h
    unfold multiReport at h
    obtain ⟨m, _, h2⟩ := bind_ok_inv h
    cases m with
    | more t => cases h2; rfl
    | done t => exact hrep { l with pending := none } t h2
  have hip : ∀ kind full, includePath w kind full file l s cells = .ok (l', s') →
      l'.lineCount = l.lineCount := by
    intro kind full h
    unfold includePath at h
    obtain ⟨m, _, h2⟩ := bind_ok_inv h
    cases m with
    | more t => cases h2; rfl
    | done n =>
      simp only at h2
      obtain ⟨p, _, h3⟩ := bind_ok_inv h2
      split at h3
      · cases h3; rfl
      · obtain ⟨s1, _, h5⟩ := bind_ok_inv h3
        cases h5; rfl
  have hsf : ∀ kind warn, superfluous kind warn file l s = .ok (l', s') →
      l'.lineCount = l.lineCount := by
    intro kind warn h
    unfold superfluous at h
    cases warn
    · cases h; rfl
    · simp only [if_true] at h
      obtain ⟨s1, _, h2⟩ := bind_ok_inv h
      cases h2; rfl
  unfold cardStep at hr
  split at hr
  · split at hr
    · unfold includeCard at hr
      split at hr
      · obtain ⟨m, _, h2⟩ := bind_ok_inv hr
        cases m with
        | more t => cases h2; rfl
        | done name =>
          simp only at h2
          obtain ⟨s1, _, h4⟩ := bind_ok_inv h2
          cases h4; rfl
      · split at hr
        · exact hip _ _ hr
        · split at hr
          · exact hip _ _ hr
          · split at hr
            · exact hsf _ _ hr
            · split at hr
              · exact hsf _ _ hr
              · split at hr
                · exact hrep _ _ hr
                · split at hr
                  · exact hmr hr
                  · exact hrep _ _ hr
    · unfold includeCardOff at hr
      split at hr
      · exact hrep _ _ hr
      · split at hr
        · exact hmr hr
        · exact hrep _ _ hr
  · exact hrep _ _ hr

/-- The cells of a line. -/
def cellsOf (t : Bytes) : Bytes := lineCells ⟨t, commentOf t⟩

/-- The loop over the numbered lines with the last call (proof device). -/
def visLoop (w : World) (cfg : Config) (root : Bytes) (inc : Bytes → Shared → Res Shared)
    (file : Bytes) : List (Nat × Bytes) → Local → Shared → Res Shared
  | [], l, s => .ok (finish l s)
  | x :: xs, l, s =>
    if isHeader (cut x.2) then
      if isEnd (cut x.2) then .ok (closeKeyword l s)
      else visLoop w cfg root inc file xs
        { l with lineCount := x.1, name := headerName (cut x.2), cardIndex := 0 } (closeKeyword l s)
    else do
      let r ← cardStep w cfg root inc file { l with lineCount := x.1 } s (cellsOf x.2)
      visLoop w cfg root inc file xs r.1 r.2

theorem visLoop_lineCount (w : World) (cfg : Config) (root : Bytes)
    (inc : Bytes → Shared → Res Shared) (file : Bytes) (xs : List (Nat × Bytes)) (l : Local)
    (s : Shared) (k : Nat) :
    visLoop w cfg root inc file xs { l with lineCount := k } s = visLoop w cfg root inc file xs l s := by
  cases xs with
  | nil => rfl
  | cons x xs => rfl

theorem linesLoop_vis (w : World) (cfg : Config) (root : Bytes)
    (inc : Bytes → Shared → Res Shared) (file : Bytes) (texts : List Bytes)
    (h0 : ∀ t ∈ texts, 0 ∉ t)
    (hh : ∀ t ∈ texts, isHeader (cut t) = true → t.head? ≠ some charComment → HeaderOk t) :
    ∀ (l : Local) (s : Shared),
      (do let r ← linesLoop w cfg root inc file (texts.map fun t => ⟨t, commentOf t⟩) l s
          .ok (finish r.1 r.2)) =
        visLoop w cfg root inc file (numberedFrom (l.lineCount + 1) texts) l s := by
  induction texts with
  | nil => intro l s; rfl
  | cons t ts ih =>
    intro l s
    have ih' := ih (fun x hx => h0 x (by simp [hx])) (fun x hx => hh x (by simp [hx]))
    simp only [List.map_cons, linesLoop, numberedFrom]
    by_cases hc0 : t.head? = some charComment
    · rw [if_pos ((commentOf_zero t).2 hc0), if_pos hc0, ih' { l with lineCount := l.lineCount + 1 } s]
      exact visLoop_lineCount w cfg root inc file _ l s _
    · rw [if_neg (fun h => hc0 ((commentOf_zero t).1 h)), if_neg hc0, isKeyword_eq]
      simp only [visLoop]
      by_cases hhd : isHeader (cut t) = true
      · rw [if_pos hhd]
        have hhd' : isHeader (t.takeWhile (· ≠ charComment)) = true := hhd
        rw [if_pos hhd', keywordName_eq t (h0 t (by simp)) hhd' (hh t (by simp) hhd hc0)]
        simp only [Res.bind_ok]
        have hcl : closeKeyword { l with lineCount := l.lineCount + 1 } s = closeKeyword l s := rfl
        rw [hcl]
        by_cases hend : headerName (cut t) = bs "END"
        · have he : isEnd (cut t) = true := by unfold isEnd; simp [hhd, hend]
          rw [if_pos he]
          have hend' : headerName (t.takeWhile (· ≠ charComment)) = bs "END" := hend
          rw [if_pos hend']
          simp only [Res.bind_ok]
          unfold finish
          rw [if_neg (fun h => h.2 hend')]
        · have he : ¬ isEnd (cut t) = true := by unfold isEnd; simp [hend]
          rw [if_neg he]
          have hend' : ¬ headerName (t.takeWhile (· ≠ charComment)) = bs "END" := hend
          rw [if_neg hend', ih']
          rfl
      · have hhd' : ¬ isHeader (t.takeWhile (· ≠ charComment)) = true := hhd
        rw [if_neg hhd, if_neg hhd']
        change ((cardStep w cfg root inc file { l with lineCount := l.lineCount + 1 } s (cellsOf t) >>=
          fun r => linesLoop w cfg root inc file (ts.map fun t => ⟨t, commentOf t⟩) r.1 r.2) >>=
          fun r => Res.ok (finish r.1 r.2)) = _
        cases hc : cardStep w cfg root inc file { l with lineCount := l.lineCount + 1 } s (cellsOf t) with
        | ok r =>
          obtain ⟨l1, s1⟩ := r
          simp only [Res.bind_ok]
          rw [ih' l1 s1, cardStep_local hc]
        | err => rfl
        | ub => rfl
        | abort => rfl

/-- The cards of a keyword (proof device). -/
def cardsRun (w : World) (cfg : Config) (root : Bytes) (inc : Bytes → Shared → Res Shared)
    (file : Bytes) : List (Nat × Bytes) → Local → Shared → Res (Local × Shared)
  | [], l, s => .ok (l, s)
  | x :: xs, l, s => do
    let r ← cardStep w cfg root inc file { l with lineCount := x.1 } s (cellsOf x.2)
    cardsRun w cfg root inc file xs r.1 r.2

theorem visLoop_cards (w : World) (cfg : Config) (root : Bytes)
    (inc : Bytes → Shared → Res Shared) (file : Bytes) (cards rest : List (Nat × Bytes))
    (hc : ∀ x ∈ cards, isHeader (cut x.2) = false) :
    ∀ (l : Local) (s : Shared), visLoop w cfg root inc file (cards ++ rest) l s =
      (do let r ← cardsRun w cfg root inc file cards l s
          visLoop w cfg root inc file rest r.1 r.2) := by
  induction cards with
  | nil => intro l s; rfl
  | cons x xs ih =>
    intro l s
    have hx := hc x (by simp)
    simp only [List.cons_append, visLoop, cardsRun, hx, Bool.false_eq_true, if_false]
    cases cardStep w cfg root inc file { l with lineCount := x.1 } s (cellsOf x.2) with
    | ok r => simp only [Res.bind_ok]; exact ih (fun y hy => hc y (by simp [hy])) r.1 r.2
    | err => rfl
    | ub => rfl
    | abort => rfl

theorem cardsRun_append (w : World) (cfg : Config) (root : Bytes)
    (inc : Bytes → Shared → Res Shared) (file : Bytes) (cards rest : List (Nat × Bytes)) :
    ∀ (l : Local) (s : Shared), cardsRun w cfg root inc file (cards ++ rest) l s =
      (do let r ← cardsRun w cfg root inc file cards l s
          cardsRun w cfg root inc file rest r.1 r.2) := by
  induction cards with
  | nil => intro l s; rfl
  | cons x xs ih =>
    intro l s
    simp only [List.cons_append, cardsRun]
    cases cardStep w cfg root inc file { l with lineCount := x.1 } s (cellsOf x.2) with
    | ok r => simp only [Res.bind_ok]; exact ih r.1 r.2
    | err => rfl
    | ub => rfl
    | abort => rfl

/-! ## File names -/

theorem cellsOf_cases (t : Bytes) :
    (charComment ∉ t ∧ cellsOf t = t) ∨
    (charComment ∈ t ∧ ∃ r, cellsOf t = cut t ++ 0 :: r ∧ t = cut t ++ charComment :: r) := by
  unfold cellsOf
  by_cases h : charComment ∈ t
  · right
    refine ⟨h, ?_⟩
    cases hc : commentOf t with
    | none => exact absurd h ((commentOf_none_iff t).1 hc)
    | some i =>
      obtain ⟨h1, h2⟩ := findIdx?_takeWhile t i hc
      refine ⟨t.drop (i + 1), ?_, ?_⟩
      · simp only [lineCells]
        rw [List.set_eq_take_append_cons_drop, if_pos h2]
        congr 1
        have := (List.takeWhile_prefix (l := t) (fun x => decide (x ≠ charComment)))
        rw [List.prefix_iff_eq_take] at this
        unfold cut
        rw [this, ← h1]
      · have hd : t.dropWhile (fun x => decide (x ≠ charComment)) = charComment :: t.drop (i + 1) := by
          rw [← drop_takeWhile_length, ← h1, List.drop_eq_getElem_cons h2]
          congr 1
          have hx := List.head?_dropWhile_not (fun x => decide (x ≠ charComment)) t
          rw [← drop_takeWhile_length, ← h1, List.drop_eq_getElem_cons h2] at hx
          simp only [List.head?_cons] at hx
          simpa using hx
        unfold cut
        rw [← hd, List.takeWhile_append_dropWhile]
  · left
    refine ⟨h, ?_⟩
    rw [(commentOf_none_iff t).2 h]; rfl

theorem cellsOf_length (t : Bytes) : (cellsOf t).length = t.length := lineCells_length t

theorem mem_cut {t : Bytes} {x : Nat} (h : x ∈ cut t) : x ∈ t := (List.takeWhile_prefix _).subset h

theorem cstr_trimEnd_nul {a r : Bytes} (h : 0 ∉ a) : cstr (trimEnd (a ++ 0 :: r)) = a := by
  have : trimEnd (a ++ 0 :: r) = a ++ 0 :: (r.reverse.dropWhile (· = charBlank)).reverse := by
    unfold trimEnd
    rw [List.reverse_append, List.reverse_cons, List.append_assoc, List.singleton_append,
      dropWhile_append_stop _ _ _ (by decide)]
    simp
  rw [this]
  unfold cstr
  rw [takeWhile_append_stop _ _ _ (by simp)]
  exact cstr_noNul h

theorem trimEnd_mem {t : Bytes} {x : Nat} (h : x ∈ trimEnd t) : x ∈ t := by
  unfold trimEnd at h
  rw [List.mem_reverse] at h
  have := (List.dropWhile_suffix (l := t.reverse) (fun x => decide (x = charBlank))).subset h
  simpa using this

theorem last_two_cells {t : Bytes} (h2 : 2 ≤ t.length) (h : t.drop (t.length - 2) ≠ contMark) :
    (cellsOf t).drop (t.length - 2) ≠ contMark := by
  rcases cellsOf_cases t with ⟨_, e⟩ | ⟨_, r, e, et⟩
  · rw [e]; exact h
  · intro hd
    rw [e] at hd
    have hlen : t.length = (cut t).length + 1 + r.length := by
      have := congrArg List.length et
      simp at this; omega
    by_cases hlt : (cut t).length < t.length - 2
    · apply h
      have : ∀ x, (cut t ++ x :: r).drop (t.length - 2) = r.drop (t.length - 2 - (cut t).length - 1) := by
        intro x
        rw [List.drop_append, List.drop_eq_nil_of_le (by omega), List.nil_append]
        obtain ⟨k, hk⟩ : ∃ k, t.length - 2 - (cut t).length = k + 1 := ⟨t.length - 2 - (cut t).length - 1, by omega⟩
        rw [hk, List.drop_succ_cons]; congr 1
      rw [this] at hd
      conv => lhs; rw [et]
      rw [show (cut t ++ charComment :: r).length = t.length from by rw [← et], this]
      exact hd
    · have hm : 0 ∈ (cut t ++ 0 :: r).drop (t.length - 2) := by
        rw [List.drop_append_of_le_length (by omega)]; simp
      rw [hd] at hm
      simp [contMark, charBlank, charPlus] at hm

theorem drop_suffix_last (a b : Bytes) (h : 2 ≤ b.length) :
    (a ++ b).drop ((a ++ b).length - 2) = b.drop (b.length - 2) := by
  rw [List.length_append, List.drop_append, List.drop_eq_nil_of_le (by omega), List.nil_append]
  congr 1; omega

theorem multiEnd_more (x : Bytes) : multiEnd (x ++ contMark) = .ok (.more x) := by
  have hl : (x ++ contMark).length = x.length + 2 := by simp [contMark]
  unfold multiEnd
  rw [hl, if_neg (by omega), Nat.add_sub_cancel, List.drop_left, List.take_left]
  rfl

theorem multiLine_cont {p c : Bytes} (hc : charComment ∉ c) :
    multiLine (some p) (cellsOf (c ++ contMark)) = .ok (.more (p ++ c)) := by
  have hn : charComment ∉ c ++ contMark := by
    rw [List.mem_append]; rintro (h | h)
    · exact hc h
    · revert h; decide
  rcases cellsOf_cases (c ++ contMark) with ⟨_, e⟩ | ⟨h, _⟩
  · simp only [multiLine]
    rw [e, ← List.append_assoc, multiEnd_more]
  · exact absurd h hn

theorem multiLine_cont_first {c : Bytes} (hc : charComment ∉ c)
    (h2 : 2 ≤ (c.dropWhile (· = charBlank)).length) :
    multiLine none (cellsOf (c ++ contMark)) = .ok (.more (c.dropWhile (· = charBlank))) := by
  have hn : charComment ∉ c ++ contMark := by
    rw [List.mem_append]; rintro (h | h)
    · exact hc h
    · revert h; decide
  rcases cellsOf_cases (c ++ contMark) with ⟨_, e⟩ | ⟨h, _⟩
  · have hd : (c ++ contMark).dropWhile (· = charBlank) = c.dropWhile (· = charBlank) ++ contMark := by
      rw [List.dropWhile_append]
      rw [if_neg]
      intro h
      rw [List.isEmpty_iff] at h
      rw [h] at h2; simp at h2
    simp only [multiLine]
    rw [e, hd, if_neg (by simp [contMark]), multiEnd_more]
  · exact absurd h hn

/-- The name after the last card, `p` in front of it. -/
theorem multiEnd_last {p last : Bytes} (hp : 0 ∉ p) (hl : 0 ∉ last) (h2 : 2 ≤ last.length)
    (hlast : last.drop (last.length - 2) ≠ contMark) :
    multiEnd (p ++ cellsOf last) = .ok (.done (if charComment ∈ last then p ++ cut last
      else trimEnd (p ++ last))) := by
  have hlc := cellsOf_length last
  unfold multiEnd
  rw [if_neg (by rw [List.length_append, hlc]; omega)]
  rw [if_neg (by
    rw [drop_suffix_last _ _ (by omega), hlc]; exact last_two_cells h2 hlast)]
  rcases cellsOf_cases last with ⟨hn, e⟩ | ⟨hn, r, e, _⟩
  · rw [if_neg hn, e, cstr_noNul]
    intro h
    rcases List.mem_append.1 (trimEnd_mem h) with h | h
    · exact hp h
    · exact hl h
  · rw [if_pos hn, e, ← List.append_assoc, cstr_trimEnd_nul]
    intro h
    rcases List.mem_append.1 h with h | h
    · exact hp h
    · exact hl (mem_cut h)

theorem multiLine_last_first {last : Bytes} (hl : 0 ∉ last)
    (h2 : 2 ≤ (last.dropWhile (· = charBlank)).length)
    (hlast : last.drop (last.length - 2) ≠ contMark) :
    multiLine none (cellsOf last) = .ok (.done (if charComment ∈ last then
      (cut last).dropWhile (· = charBlank) else trimmed last)) := by
  have hle : (last.dropWhile (· = charBlank)).length ≤ last.length := (List.dropWhile_suffix _).length_le
  have hlc := cellsOf_length last
  simp only [multiLine]
  have hcells := last_two_cells (by omega) hlast
  have hdl : ((cellsOf last).dropWhile (· = charBlank)).length = (last.dropWhile (· = charBlank)).length := by
    rcases cellsOf_cases last with ⟨_, e⟩ | ⟨_, r, e, et⟩
    · rw [e]
    · rw [e]; conv => rhs; rw [et]
      rw [dropWhile_append_stop _ _ _ (by decide), dropWhile_append_stop _ _ _ (by decide)]
      simp
  rw [if_neg (by intro h; rw [h] at hdl; simp at hdl; omega)]
  unfold multiEnd
  rw [if_neg (by omega)]
  have hsuf : ((cellsOf last).dropWhile (· = charBlank)).drop
      (((cellsOf last).dropWhile (· = charBlank)).length - 2) = (cellsOf last).drop (last.length - 2) := by
    conv => rhs; rw [← List.takeWhile_append_dropWhile (p := fun x => decide (x = charBlank)) (l := cellsOf last)]
    have hx := drop_suffix_last ((cellsOf last).takeWhile (· = charBlank))
      ((cellsOf last).dropWhile (· = charBlank)) (by omega)
    rw [← hx]
    congr 1
    rw [List.takeWhile_append_dropWhile, hlc]
  rw [hsuf, if_neg (show ¬ _ = [charBlank, charPlus] from hcells)]
  rcases cellsOf_cases last with ⟨hn, e⟩ | ⟨hn, r, e, _⟩
  · rw [if_neg hn, e, cstr_noNul]
    · rfl
    · intro h
      exact hl ((List.dropWhile_suffix _).subset (trimEnd_mem h))
  · rw [if_pos hn, e, dropWhile_append_stop _ _ _ (by decide), cstr_trimEnd_nul]
    intro h
    exact hl (mem_cut ((List.dropWhile_suffix _).subset h))

/-! ## Cards that are file names -/

theorem cellsOf_blank (k : Nat) : cellsOf (List.replicate k charBlank) = List.replicate k charBlank := by
  rcases cellsOf_cases (List.replicate k charBlank) with ⟨_, e⟩ | ⟨h, _⟩
  · exact e
  · rw [List.mem_replicate] at h; exact absurd h.2 (by decide)

theorem multiLine_blank (k : Nat) :
    multiLine none (cellsOf (List.replicate k charBlank)) = .ok (.done []) := by
  rw [cellsOf_blank]
  have : (List.replicate k charBlank).dropWhile (· = charBlank) = [] := by
    have := dropWhile_replicate_append k [] (by simp)
    rwa [List.append_nil] at this
  simp only [multiLine]
  rw [this, if_pos rfl]

/-- The cards of the keyword `nm` with the index `i` are parsed as file names; `k` is what happens
with a complete name. -/
def NameStep (w : World) (cfg : Config) (root : Bytes) (inc : Bytes → Shared → Res Shared)
    (file nm : Bytes) (i : Nat) (k : Local → Shared → Bytes → Res (Local × Shared)) : Prop :=
  ∀ (l : Local) (s : Shared) (cells : Bytes), l.name = nm → l.cardIndex = i →
    cardStep w cfg root inc file l s cells = (multiLine l.pending cells >>= fun m =>
      match m with
      | .more t => .ok ({ l with pending := some t }, s)
      | .done n => k l s n)

theorem name_run_tail {w : World} {cfg : Config} {root : Bytes} {inc : Bytes → Shared → Res Shared}
    {file nm : Bytes} {i : Nat} {k : Local → Shared → Bytes → Res (Local × Shared)}
    (H : NameStep w cfg root inc file nm i k) (line : Nat) (last : Bytes) (hl : 0 ∉ last)
    (h2 : 2 ≤ last.length) (hlast : last.drop (last.length - 2) ≠ contMark)
    (rest : List (Nat × Bytes)) (s : Shared) (conts : List (Nat × Bytes)) :
    (∀ c ∈ conts, charComment ∉ c.2) → (∀ c ∈ conts, 0 ∉ c.2) →
    ∀ (p : Bytes) (lc : Nat), 0 ∉ p → ∃ q, cardsRun w cfg root inc file
        (conts.map (fun c => (c.1, c.2 ++ contMark)) ++ [(line, last)] ++ rest)
        ⟨nm, i, lc, some p⟩ s =
      (k ⟨nm, i, line, q⟩ s (if charComment ∈ last then p ++ conts.flatMap Prod.snd ++ cut last
        else trimEnd (p ++ conts.flatMap Prod.snd ++ last)) >>= fun r =>
        cardsRun w cfg root inc file rest r.1 r.2) := by
  induction conts with
  | nil =>
    intro _ _ p lc hp
    refine ⟨some p, ?_⟩
    simp only [List.map_nil, List.nil_append, List.singleton_append, cardsRun]
    rw [H ⟨nm, i, line, some p⟩ s (cellsOf last) rfl rfl]
    simp only [multiLine]
    rw [multiEnd_last hp hl h2 hlast]
    simp
  | cons c cs ih =>
    intro h1 h0 p lc hp
    have hpc : 0 ∉ p ++ c.2 := by
      rw [List.mem_append]; rintro (h | h)
      · exact hp h
      · exact h0 c (by simp) h
    obtain ⟨q, hq⟩ := ih (fun x hx => h1 x (by simp [hx])) (fun x hx => h0 x (by simp [hx]))
      (p ++ c.2) c.1 hpc
    refine ⟨q, ?_⟩
    simp only [List.map_cons, List.cons_append, cardsRun]
    rw [H ⟨nm, i, c.1, some p⟩ s _ rfl rfl]
    simp only
    rw [multiLine_cont (h1 c (by simp))]
    simp only [Res.bind_ok]
    rw [hq]
    simp only [List.flatMap_cons, List.append_assoc]

theorem name_run {w : World} {cfg : Config} {root : Bytes} {inc : Bytes → Shared → Res Shared}
    {file nm : Bytes} {i : Nat} {k : Local → Shared → Bytes → Res (Local × Shared)}
    (H : NameStep w cfg root inc file nm i k) {c : List (Nat × Bytes)} {line : Nat} {n : Bytes}
    (hn : IsName c line n) (h0 : ∀ x ∈ c, 0 ∉ x.2) (rest : List (Nat × Bytes)) (s : Shared)
    (lc : Nat) :
    ∃ q, cardsRun w cfg root inc file (c ++ rest) ⟨nm, i, lc, none⟩ s =
      (k ⟨nm, i, line, q⟩ s n >>= fun r => cardsRun w cfg root inc file rest r.1 r.2) := by
  cases hn with
  | blank line j =>
    refine ⟨none, ?_⟩
    simp only [List.singleton_append, cardsRun]
    rw [H ⟨nm, i, line, none⟩ s _ rfl rfl]
    simp only
    rw [multiLine_blank]
    rfl
  | name conts line last hconts hlast htwo hfirst =>
    have hl : 0 ∉ last := h0 (line, last) (by simp)
    cases conts with
    | nil =>
      refine ⟨none, ?_⟩
      simp only [List.map_nil, List.nil_append, List.singleton_append, cardsRun, List.flatMap_nil]
      rw [H ⟨nm, i, line, none⟩ s _ rfl rfl]
      simp only
      rw [multiLine_last_first hl (by simpa using hfirst) hlast]
      simp only [Res.bind_ok]
    | cons c cs =>
      have hc0 : ∀ x ∈ c :: cs, 0 ∉ x.2 := by
        intro x hx hm
        refine h0 (x.1, x.2 ++ contMark) ?_ (by simp [hm])
        apply List.mem_append_left
        exact List.mem_map.2 ⟨x, hx, rfl⟩
      have hf : 2 ≤ (c.2.dropWhile (· = charBlank)).length := by simpa using hfirst
      have hp : 0 ∉ c.2.dropWhile (· = charBlank) := fun h =>
        hc0 c (by simp) ((List.dropWhile_suffix _).subset h)
      obtain ⟨q, hq⟩ := name_run_tail H line last hl htwo hlast rest s cs
        (fun x hx => hconts x (by simp [hx])) (fun x hx => hc0 x (by simp [hx])) _ c.1 hp
      refine ⟨q, ?_⟩
      simp only [List.map_cons, List.cons_append, cardsRun]
      rw [H ⟨nm, i, c.1, none⟩ s _ rfl rfl]
      simp only
      rw [multiLine_cont_first (hconts c (by simp)) hf]
      simp only [Res.bind_ok]
      rw [hq]
      have hd : ∀ x : Bytes, (c.2 ++ x).dropWhile (· = charBlank) = c.2.dropWhile (· = charBlank) ++ x := by
        intro x
        rw [List.dropWhile_append, if_neg]
        intro h
        rw [List.isEmpty_iff] at h
        rw [h] at hf; simp at hf
      unfold trimmed
      simp only [List.flatMap_cons, List.append_assoc, hd]

/-- The effect of the file names one after the other; `i` is the index of the next card. -/
def namesFold (g : Nat → Nat → Shared → Bytes → Res Shared) :
    Nat → List (Nat × Bytes) → Shared → Res Shared
  | _, [], s => .ok s
  | i, x :: xs, s => do
    let s ← g i x.1 s x.2
    namesFold g (i + 1) xs s

theorem names_run {w : World} {cfg : Config} {root : Bytes} {inc : Bytes → Shared → Res Shared}
    {file nm : Bytes} {k : Local → Shared → Bytes → Res (Local × Shared)}
    (H : ∀ i, NameStep w cfg root inc file nm i k)
    {g : Nat → Nat → Shared → Bytes → Res Shared}
    (hg : ∀ i line q s n, k ⟨nm, i, line, q⟩ s n =
      (g i line s n >>= fun s' => .ok (⟨nm, i + 1, line, none⟩, s')))
    {cards ns : List (Nat × Bytes)} (hn : Names cards ns) (h0 : ∀ x ∈ cards, 0 ∉ x.2) :
    ∀ (i lc : Nat) (s s' : Shared), namesFold g i ns s = .ok s' →
      ∃ lc', cardsRun w cfg root inc file cards ⟨nm, i, lc, none⟩ s =
        .ok (⟨nm, i + ns.length, lc', none⟩, s') := by
  induction hn with
  | nil => intro i lc s s' h; cases h; exact ⟨lc, rfl⟩
  | cons hc _ ih =>
    intro i lc s s' h
    simp only [namesFold] at h
    obtain ⟨s1, h1, h2⟩ := bind_ok_inv h
    obtain ⟨q, hq⟩ := name_run (H i) hc (fun x hx => h0 x (by simp [hx])) _ s lc
    rw [hq, hg, h1]
    simp only [Res.bind_ok]
    obtain ⟨lc', h3⟩ := ih (fun x hx => h0 x (by simp [hx])) (i + 1) _ s1 s' h2
    refine ⟨lc', ?_⟩
    rw [h3]
    simp only [List.length_cons, Nat.add_assoc, Nat.add_comm 1]

theorem IsName.ne_nil {c : List (Nat × Bytes)} {line : Nat} {n : Bytes} (h : IsName c line n) :
    c ≠ [] := by cases h <;> simp

theorem Names.pos {cards ns : List (Nat × Bytes)} (h : Names cards ns) (hne : cards ≠ []) :
    0 < ns.length := by
  cases h with
  | nil => exact absurd rfl hne
  | cons _ _ => simp

/-! ## Cards that are reported as they are -/

theorem cellsOf_cstr {t : Bytes} (h0 : 0 ∉ t) : cstr (cellsOf t) = cut t := lineCells_cstr t h0

theorem plain_run {w : World} {cfg : Config} {root : Bytes} {inc : Bytes → Shared → Res Shared}
    {file nm : Bytes} {i0 : Nat}
    (H : ∀ (l : Local) (s : Shared) (cells : Bytes), l.name = nm → i0 ≤ l.cardIndex →
      cardStep w cfg root inc file l s cells = .ok (report l s (cstr cells)))
    (cards : List (Nat × Bytes)) (h0 : ∀ x ∈ cards, 0 ∉ x.2) :
    ∀ (i lc : Nat) (s : Shared), i0 ≤ i → ∃ lc',
      cardsRun w cfg root inc file cards ⟨nm, i, lc, none⟩ s =
        .ok (⟨nm, i + cards.length, lc', none⟩,
          { s with events := s.events ++ cardCalls nm i (cards.map fun c => cut c.2) }) := by
  induction cards with
  | nil => intro i lc s _; exact ⟨lc, by simp [cardsRun, cardCalls]⟩
  | cons x xs ih =>
    intro i lc s hi
    obtain ⟨lc', h⟩ := ih (fun y hy => h0 y (by simp [hy])) (i + 1) x.1
      (s.emit ⟨nm, some (cut x.2), some i⟩) (by omega)
    refine ⟨lc', ?_⟩
    simp only [cardsRun]
    rw [H ⟨nm, i, x.1, none⟩ s _ rfl hi]
    simp only [Res.bind_ok, report]
    rw [cellsOf_cstr (h0 x (by simp)), h, List.map_cons, cardCalls_cons]
    simp [Shared.emit, Nat.add_assoc, Nat.add_comm 1]

/-! ## The kinds of keywords -/

theorem step_plain {w : World} {cfg : Config} {root : Bytes} {inc : Bytes → Shared → Res Shared}
    {file nm : Bytes} (h : ¬ bs "INCLUDE" <+: nm ∨ bs "INCLUDE_MULTISCALE" <+: nm)
    (l : Local) (s : Shared) (cells : Bytes) (hl : l.name = nm) :
    cardStep w cfg root inc file l s cells = .ok (report l s (cstr cells)) := by
  unfold cardStep startsWith
  by_cases hp : (bs "INCLUDE").isPrefixOf l.name = true
  · rw [if_pos hp]
    have hms : bs "INCLUDE_MULTISCALE" <+: nm := by
      rcases h with h | h
      · rw [List.isPrefixOf_iff_prefix, hl] at hp; exact absurd hp h
      · exact h
    have hms' : (bs "INCLUDE_MULTISCALE").isPrefixOf l.name = true := by
      rw [List.isPrefixOf_iff_prefix, hl]; exact hms
    have hne : ∀ x : Bytes, (bs "INCLUDE_MULTISCALE").isPrefixOf x = false → l.name ≠ x := by
      intro x hx e; rw [e, hx] at hms'; cases hms'
    have n1 := hne (bs "INCLUDE") (by decide +kernel)
    have n2 := hne (bs "INCLUDE_BINARY") (by decide +kernel)
    have n3 := hne (bs "INCLUDE_NASTRAN") (by decide +kernel)
    have n4 := hne (bs "INCLUDE_PATH") (by decide +kernel)
    have n5 := hne (bs "INCLUDE_PATH_RELATIVE") (by decide +kernel)
    split
    · unfold includeCard startsWith
      rw [if_neg (by simp [n1, n2, n3]), if_neg n4, if_neg n5, if_neg n2, if_neg n3, if_pos hms']
    · unfold includeCardOff startsWith
      rw [if_pos hms']
  · rw [if_neg hp]

/-- What happens with a complete name that is reported. -/
def reportName (l : Local) (s : Shared) (t : Bytes) : Res (Local × Shared) :=
  .ok (report { l with pending := none } s t)

theorem multiReport_step (l : Local) (s : Shared) (cells : Bytes) :
    multiReport l s cells = (multiLine l.pending cells >>= fun m =>
      match m with
      | .more t => .ok ({ l with pending := some t }, s)
      | .done n => reportName l s n) := rfl

theorem step_namesOff {w : World} {cfg : Config} {root : Bytes} {inc : Bytes → Shared → Res Shared}
    {file nm : Bytes} (hcfg : cfg.parseIncludes = false)
    (hname : nm = bs "INCLUDE" ∨ nm = bs "INCLUDE_PATH" ∨ nm = bs "INCLUDE_PATH_RELATIVE") (i : Nat) :
    NameStep w cfg root inc file nm i reportName := by
  intro l s cells hl _
  have h1 : (bs "INCLUDE").isPrefixOf nm = true := by
    rcases hname with h | h | h <;> (rw [h]; decide +kernel)
  have h2 : (bs "INCLUDE_MULTISCALE").isPrefixOf nm = false := by
    rcases hname with h | h | h <;> (rw [h]; decide +kernel)
  unfold cardStep startsWith
  rw [hl, if_pos h1, if_neg (by simp [hcfg])]
  unfold includeCardOff startsWith
  rw [hl, if_neg (by simp [h2]), if_pos (by rcases hname with h | h | h <;> simp [h])]
  subst hl
  rfl

theorem other_names {cfg : Config} {nm : Bytes} (hother : nm ∉ handled ∨
    (cfg.parseIncludes = false ∧ (nm = bs "INCLUDE_BINARY" ∨ nm = bs "INCLUDE_NASTRAN"))) :
    nm ≠ bs "INCLUDE" ∧ nm ≠ bs "INCLUDE_PATH" ∧ nm ≠ bs "INCLUDE_PATH_RELATIVE" ∧
    (cfg.parseIncludes = true → nm ≠ bs "INCLUDE_BINARY" ∧ nm ≠ bs "INCLUDE_NASTRAN") := by
  rcases hother with h | ⟨h0, h | h⟩
  · simp only [handled, List.mem_cons, List.not_mem_nil, or_false, not_or] at h
    exact ⟨h.1, h.2.2.2.1, h.2.2.2.2, fun _ => ⟨h.2.1, h.2.2.1⟩⟩
  · rw [h]
    exact ⟨by decide +kernel, by decide +kernel, by decide +kernel, fun h1 => by rw [h0] at h1; cases h1⟩
  · rw [h]
    exact ⟨by decide +kernel, by decide +kernel, by decide +kernel, fun h1 => by rw [h0] at h1; cases h1⟩

theorem step_other {w : World} {cfg : Config} {root : Bytes} {inc : Bytes → Shared → Res Shared}
    {file nm : Bytes} (hpre : bs "INCLUDE" <+: nm) (hms : ¬ bs "INCLUDE_MULTISCALE" <+: nm)
    (hother : nm ∉ handled ∨
      (cfg.parseIncludes = false ∧ (nm = bs "INCLUDE_BINARY" ∨ nm = bs "INCLUDE_NASTRAN")))
    (l : Local) (s : Shared) (cells : Bytes) (hl : l.name = nm) :
    cardStep w cfg root inc file l s cells =
      if l.cardIndex = 0 then multiReport l s cells else .ok (report l s (cstr cells)) := by
  obtain ⟨n1, n2, n3, n4⟩ := other_names hother
  have h1 : (bs "INCLUDE").isPrefixOf nm = true := List.isPrefixOf_iff_prefix.2 hpre
  have h2 : ¬ (bs "INCLUDE_MULTISCALE").isPrefixOf nm = true := by
    rw [List.isPrefixOf_iff_prefix]; exact hms
  unfold cardStep startsWith
  rw [hl, if_pos h1]
  by_cases hcfg : cfg.parseIncludes = true
  · rw [if_pos hcfg]
    obtain ⟨n5, n6⟩ := n4 hcfg
    unfold includeCard startsWith
    rw [hl, if_neg (by simp [n1, n5, n6]), if_neg n2, if_neg n3, if_neg n5, if_neg n6, if_neg h2]
  · rw [if_neg hcfg]
    unfold includeCardOff startsWith
    rw [hl, if_neg h2]
    by_cases hi : l.cardIndex = 0
    · rw [if_pos (by simp [hi]), if_pos hi]
    · rw [if_neg (by simp [hi, n1, n2, n3]), if_neg hi]

/-- What happens with the complete name of a file to include. -/
def includeName (w : World) (cfg : Config) (inc : Bytes → Shared → Res Shared) (file : Bytes)
    (l : Local) (s : Shared) (n : Bytes) : Res (Local × Shared) := do
  let s ← includeFile w cfg inc file l.lineCount s n
  .ok ({ l with pending := none, cardIndex := l.cardIndex + 1 }, s)

theorem step_include {w : World} {cfg : Config} {root : Bytes} {inc : Bytes → Shared → Res Shared}
    {file nm : Bytes} (hcfg : cfg.parseIncludes = true) (i : Nat)
    (hname : nm = bs "INCLUDE" ∨ (i = 0 ∧ (nm = bs "INCLUDE_BINARY" ∨ nm = bs "INCLUDE_NASTRAN"))) :
    NameStep w cfg root inc file nm i (includeName w cfg inc file) := by
  intro l s cells hl hi
  have h1 : (bs "INCLUDE").isPrefixOf nm = true := by
    rcases hname with h | ⟨_, h | h⟩ <;> (rw [h]; decide +kernel)
  unfold cardStep startsWith
  rw [hl, if_pos h1, if_pos hcfg]
  unfold includeCard
  rw [if_pos (by
    rw [hl, hi]
    rcases hname with h | ⟨h0, h | h⟩
    · exact .inl h
    · exact .inr (.inl ⟨h, h0⟩)
    · exact .inr (.inr ⟨h, h0⟩))]
  subst hl
  rfl

/-- What happens with the complete name of a directory. -/
def pathName (w : World) (kind : Bytes) (full : Bytes → Res Bytes) (file : Bytes) (l : Local)
    (s : Shared) (name : Bytes) : Res (Local × Shared) := do
  let path ← full name
  let l := { l with pending := none, cardIndex := l.cardIndex + 1 }
  if w.isDir path then .ok (l, { s with paths := s.paths ++ [path] })
  else do
    let s ← s.warn (place file l.lineCount ++ kind ++ bs " has not been found: \"" ++ path ++
      bs "\"")
    .ok (l, s)

theorem step_path {w : World} {cfg : Config} {root : Bytes} {inc : Bytes → Shared → Res Shared}
    {file : Bytes} (hcfg : cfg.parseIncludes = true) (i : Nat) :
    NameStep w cfg root inc file (bs "INCLUDE_PATH") i
      (pathName w (bs "INCLUDE_PATH") (fun n => .ok n) file) := by
  intro l s cells hl _
  unfold cardStep startsWith
  rw [hl, if_pos (by decide +kernel), if_pos hcfg]
  unfold includeCard
  rw [hl, if_neg (by
    rintro (h | ⟨h, _⟩ | ⟨h, _⟩) <;> (revert h; decide +kernel)), if_pos rfl, ← hl]
  rfl

theorem step_pathRelative {w : World} {cfg : Config} {root : Bytes}
    {inc : Bytes → Shared → Res Shared} {file : Bytes} (hcfg : cfg.parseIncludes = true) (i : Nat) :
    NameStep w cfg root inc file (bs "INCLUDE_PATH_RELATIVE") i
      (pathName w (bs "INCLUDE_PATH_RELATIVE") (fun n => pathJoin root n) file) := by
  intro l s cells hl _
  unfold cardStep startsWith
  rw [hl, if_pos (by decide +kernel), if_pos hcfg]
  unfold includeCard
  rw [hl, if_neg (by
    rintro (h | ⟨h, _⟩ | ⟨h, _⟩) <;> (revert h; decide +kernel)),
    if_neg (by decide +kernel), if_pos rfl, ← hl]
  rfl

theorem step_binary {w : World} {cfg : Config} {root : Bytes} {inc : Bytes → Shared → Res Shared}
    {file : Bytes} (hcfg : cfg.parseIncludes = true) (l : Local) (s : Shared) (cells : Bytes)
    (hl : l.name = bs "INCLUDE_BINARY") (hi : l.cardIndex ≠ 0) :
    cardStep w cfg root inc file l s cells =
      superfluous (bs "INCLUDE_BINARY") true file l s := by
  unfold cardStep startsWith
  rw [hl, if_pos (by decide +kernel), if_pos hcfg]
  unfold includeCard
  rw [hl, if_neg (by
    rintro (h | ⟨_, h⟩ | ⟨h, _⟩)
    · revert h; decide +kernel
    · exact hi h
    · revert h; decide +kernel),
    if_neg (by decide +kernel), if_neg (by decide +kernel), if_pos rfl]

theorem step_nastran {w : World} {cfg : Config} {root : Bytes} {inc : Bytes → Shared → Res Shared}
    {file : Bytes} (hcfg : cfg.parseIncludes = true) (l : Local) (s : Shared) (cells : Bytes)
    (hl : l.name = bs "INCLUDE_NASTRAN") (hi : l.cardIndex ≠ 0) :
    cardStep w cfg root inc file l s cells =
      superfluous (bs "INCLUDE_NASTRAN") (decide (l.cardIndex ≠ 1)) file l s := by
  unfold cardStep startsWith
  rw [hl, if_pos (by decide +kernel), if_pos hcfg]
  unfold includeCard
  rw [hl, if_neg (by
    rintro (h | ⟨h, _⟩ | ⟨_, h⟩)
    · revert h; decide +kernel
    · revert h; decide +kernel
    · exact hi h),
    if_neg (by decide +kernel), if_neg (by decide +kernel), if_neg (by decide +kernel), if_pos rfl]

theorem warn_ok (s : Shared) {m : Bytes} (h : m.length < 1024) :
    s.warn m = .ok { s with warnings := s.warnings ++ [m] } := by
  unfold Shared.warn pushF; rw [if_pos h]; rfl

theorem error_ok (s : Shared) {m : Bytes} (h : m.length < 1024) :
    s.error m = .ok { s with errors := s.errors ++ [m] } := by
  unfold Shared.error pushF; rw [if_pos h]; rfl

theorem superfluous_run {w : World} {cfg : Config} {root : Bytes}
    {inc : Bytes → Shared → Res Shared} {file nm : Bytes} {i0 : Nat}
    (H : ∀ (l : Local) (s : Shared) (cells : Bytes), l.name = nm → i0 ≤ l.cardIndex →
      cardStep w cfg root inc file l s cells = superfluous nm true file l s)
    (cards : List (Nat × Bytes)) :
    ∀ (i lc : Nat) (s : Shared), i0 ≤ i →
      (∀ m ∈ cards.mapIdx (fun j x => extraCardMsg file x.1 nm (i + 1 + j)), m.length < 1024) →
      ∃ lc', cardsRun w cfg root inc file cards ⟨nm, i, lc, none⟩ s =
        .ok (⟨nm, i + cards.length, lc', none⟩,
          { s with warnings := s.warnings ++
            cards.mapIdx fun j x => extraCardMsg file x.1 nm (i + 1 + j) }) := by
  induction cards with
  | nil => intro i lc s _ _; exact ⟨lc, by simp [cardsRun]⟩
  | cons x xs ih =>
    intro i lc s hi hm
    have hmap : (x :: xs).mapIdx (fun j x => extraCardMsg file x.1 nm (i + 1 + j)) =
        extraCardMsg file x.1 nm (i + 1) ::
          xs.mapIdx (fun j x => extraCardMsg file x.1 nm (i + 1 + 1 + j)) := by
      rw [List.mapIdx_cons]
      congr 1
      apply List.mapIdx_eq_mapIdx_iff.2
      intro j hj
      rw [show i + 1 + (j + 1) = i + 1 + 1 + j by omega]
    rw [hmap] at hm ⊢
    have hx := hm _ List.mem_cons_self
    obtain ⟨lc', h⟩ := ih (i + 1) x.1
      { s with warnings := s.warnings ++ [extraCardMsg file x.1 nm (i + 1)] } (by omega)
      (fun m hmm => hm m (List.mem_cons_of_mem _ hmm))
    refine ⟨lc', ?_⟩
    simp only [cardsRun]
    rw [H ⟨nm, i, x.1, none⟩ s _ rfl hi]
    unfold superfluous
    simp only [if_true]
    have he : place file x.1 ++ bs "Invalid number of cards (" ++ dec (i + 1) ++ bs ") for " ++ nm ++
        bs " keyword" = extraCardMsg file x.1 nm (i + 1) := by
      unfold place extraCardMsg
      have : bs ": Invalid number of cards (" = bs ": " ++ bs "Invalid number of cards (" := by
        decide +kernel
      rw [this]; simp only [List.append_assoc]
    rw [he, warn_ok s hx]
    simp only [Res.bind_ok]
    rw [h]
    simp [Nat.add_assoc, Nat.add_comm 1]

/-! ## The search -/

theorem resolve_found {w : World} {paths : List Bytes} {name full : Bytes}
    (h : Found w paths name full) : resolve w paths name = .ok (some full) := by
  obtain ⟨pre, p, post, rfl, h2, h3, h4⟩ := h
  induction pre with
  | nil => simp only [List.nil_append, resolve]; rw [h2]; simp [h3]
  | cons q qs ih =>
    obtain ⟨g, hg, hf⟩ := h4 q (by simp)
    simp only [List.cons_append, resolve]
    rw [hg]
    simp only [Res.bind_ok, hf, Bool.false_eq_true, if_false]
    exact ih (fun r hr => h4 r (by simp [hr]))

theorem resolve_notFound {w : World} {paths : List Bytes} {name : Bytes}
    (h : NotFound w paths name) : resolve w paths name = .ok none := by
  induction paths with
  | nil => rfl
  | cons q qs ih =>
    obtain ⟨g, hg, hf⟩ := h q (by simp)
    simp only [resolve]
    rw [hg]
    simp only [Res.bind_ok, hf, Bool.false_eq_true, if_false]
    exact ih (fun r hr => h r (by simp [hr]))

theorem notFoundMsg_eq (f : Bytes) (line : Nat) (n : Bytes) :
    notFoundMsg f line n = noFileMsg f line n := by
  unfold notFoundMsg noFileMsg place
  have : bs ": \"" = bs ": " ++ bs "\"" := by decide +kernel
  rw [this]; simp only [List.append_assoc]

theorem behind_assoc (a b c : Shared) : (a.behind b).behind c = a.behind (b.behind c) := by
  simp [Shared.behind]

theorem behind_self (s : Shared) : s.behind { paths := s.paths } = s := by simp [Shared.behind]

/-! ## The steps of the proof -/

/-- All names are included one after the other. -/
def includeAll (w : World) (cfg : Config) (inc : Bytes → Shared → Res Shared) (f : Bytes) :
    List (Nat × Bytes) → Shared → Res Shared :=
  namesFold (fun _ line s n => includeFile w cfg inc f line s n) 0

theorem namesFold_index {g : Nat → Nat → Shared → Bytes → Res Shared}
    (hg : ∀ i j, g i = g j) (i j : Nat) (ns : List (Nat × Bytes)) (s : Shared) :
    namesFold g i ns s = namesFold g j ns s := by
  induction ns generalizing i j s with
  | nil => rfl
  | cons x xs ih =>
    simp only [namesFold]
    rw [hg i j]
    congr 1
    funext s'
    exact ih (i + 1) (j + 1) s'

/-- The lines do not contain NUL and the keywords have names. -/
def LinesOk (xs : List (Nat × Bytes)) : Prop :=
  ∀ x ∈ xs, 0 ∉ x.2 ∧ (isHeader (cut x.2) = true → headerName (cut x.2) ≠ [])

/-- The claim for one keyword. -/
def BlockOk (w : World) (cfg : Config) (root : Bytes) (inc : Bytes → Shared → Res Shared) (f : Bytes)
    (b : Block) (ps : List Bytes) (o : Shared) : Prop :=
  ∀ (lc : Nat) (s : Shared), s.paths = ps → (∀ c ∈ b.cards, 0 ∉ c.2) →
    (b.name ≠ [] ∨ b.cards ≠ []) →
    ∃ l' s', cardsRun w cfg root inc f b.cards ⟨b.name, 0, lc, none⟩ s = .ok (l', s') ∧
      l'.name = b.name ∧ l'.pending = none ∧ (l'.name ≠ [] ∨ l'.cardIndex ≠ 0) ∧
      closeKeyword l' s' = s.behind o

/-- The claim for keywords. -/
def BlocksOk (w : World) (cfg : Config) (root : Bytes) (inc : Bytes → Shared → Res Shared)
    (f : Bytes) : List Block → List Bytes → Shared → Prop
  | [], ps, o => o = { paths := ps }
  | b :: rest, ps, o => ∀ (xs : List (Nat × Bytes)) (lc : Nat) (s : Shared), LinesOk xs →
      nextCards xs = b.cards → numberedBlocks xs = rest → b.name ≠ bs "END" →
      (b.name ≠ [] ∨ b.cards ≠ []) → s.paths = ps →
      visLoop w cfg root inc f xs ⟨b.name, 0, lc, none⟩ s = .ok (s.behind o)

/-- The claim for all tasks. -/
def TaskOk (w : World) (cfg : Config) (root : Bytes) (depth : Nat) : Task → List Bytes → Shared → Prop
  | .file f, ps, o => ∀ s : Shared, s.paths = ps → parseFile w cfg root depth f s = .ok (s.behind o)
  | .blocks f bs, ps, o => BlocksOk w cfg root (parseFile w cfg root depth) f bs ps o
  | .block f b, ps, o => BlockOk w cfg root (parseFile w cfg root depth) f b ps o
  | .includes f ns, ps, o => ∀ s : Shared, s.paths = ps →
      includeAll w cfg (parseFile w cfg root depth) f ns s = .ok (s.behind o)

theorem isEnd_header {v : Bytes} (h : isEnd v = true) : isHeader v = true := by
  unfold isEnd at h; simp at h; exact h.1

theorem blocks_at_header {w : World} {cfg : Config} {root : Bytes}
    {inc : Bytes → Shared → Res Shared} {f : Bytes} {xs : List (Nat × Bytes)} {ps : List Bytes}
    {o : Shared} (h : BlocksOk w cfg root inc f (numberedBlocks xs) ps o) (hx : LinesOk xs)
    (hc : nextCards xs = []) (l : Local) (s : Shared) (hpd : l.pending = none)
    (hend : l.name ≠ bs "END") (hne : l.name ≠ [] ∨ l.cardIndex ≠ 0 ∨ xs ≠ []) (hs : s.paths = ps) :
    visLoop w cfg root inc f xs l s = .ok ((closeKeyword l s).behind o) := by
  have hcp : (closeKeyword l s).paths = ps := by rw [closeKeyword_paths, hs]
  have hnil : ∀ o, o = ({ paths := ps } : Shared) → (closeKeyword l s).behind o = closeKeyword l s := by
    intro o ho; rw [ho, ← hcp]; exact behind_self _
  cases xs with
  | nil =>
    have ho : o = { paths := ps } := h
    rw [hnil o ho]
    simp only [visLoop]
    congr 1
    unfold finish closeKeyword
    by_cases h0 : l.cardIndex = 0
    · have hn : l.name ≠ [] := by
        rcases hne with h | h | h
        · exact h
        · exact absurd h0 h
        · exact absurd rfl h
      rw [if_pos ⟨h0, hend⟩, if_pos ⟨hn, h0⟩, hpd]; rfl
    · rw [if_neg (fun h => h0 h.1), if_neg (fun h => h0 h.2)]
  | cons x xs =>
    have hh : isHeader (cut x.2) = true := by
      unfold nextCards at hc
      rw [List.takeWhile_cons] at hc
      cases hx : isHeader (cut x.2) with
      | true => rfl
      | false => rw [hx] at hc; simp at hc
    simp only [visLoop, hh, if_true]
    by_cases he : isEnd (cut x.2) = true
    · rw [if_pos he]
      rw [numberedBlocks, if_pos he] at h
      rw [hnil o h]
    · rw [if_neg he]
      rw [numberedBlocks, if_neg he, if_pos hh] at h
      have hname : headerName (cut x.2) ≠ bs "END" := by
        intro e; apply he; unfold isEnd; simp [hh, e]
      have := h xs x.1 (closeKeyword l s) (fun y hy => hx y (by simp [hy])) rfl rfl hname
        (.inl ((hx x (by simp)).2 hh)) hcp
      rw [hpd]
      exact this

theorem nextCards_split (xs : List (Nat × Bytes)) :
    ∃ rest, xs = nextCards xs ++ rest ∧ nextCards rest = [] ∧ numberedBlocks xs = numberedBlocks rest := by
  induction xs with
  | nil => exact ⟨[], rfl, rfl, rfl⟩
  | cons x xs ih =>
    unfold nextCards at ih ⊢
    rw [List.takeWhile_cons]
    cases hx : isHeader (cut x.2) with
    | true =>
      refine ⟨x :: xs, by simp, ?_, rfl⟩
      rw [List.takeWhile_cons, hx]; rfl
    | false =>
      obtain ⟨rest, h1, h2, h3⟩ := ih
      refine ⟨rest, ?_, h2, ?_⟩
      · simp only [Bool.not_false, if_true, List.cons_append]
        rw [← h1]
      · rw [numberedBlocks, if_neg (fun h => by rw [isEnd_header h] at hx; cases hx), hx]
        simpa using h3

theorem blocks_cons {w : World} {cfg : Config} {root : Bytes}
    {inc : Bytes → Shared → Res Shared} {f : Bytes} {b : Block} {rest : List Block} {ps : List Bytes}
    {o o' : Shared} (h : BlockOk w cfg root inc f b ps o)
    (h' : BlocksOk w cfg root inc f rest o.paths o') :
    BlocksOk w cfg root inc f (b :: rest) ps (o.behind o') := by
  intro xs lc s hx hc hb hend hne hs
  obtain ⟨tail, h1, h2, h3⟩ := nextCards_split xs
  have hcards : ∀ x ∈ nextCards xs, isHeader (cut x.2) = false := by
    intro x hm
    have := List.all_eq_true.1
      (List.all_takeWhile (p := fun x : Nat × Bytes => !isHeader (cut x.2)) (l := xs)) x hm
    simpa using this
  have hsub : ∀ x ∈ nextCards xs, x ∈ xs := fun x hm => (List.takeWhile_prefix _).subset hm
  obtain ⟨l', s', e1, e2, e3, e4, e5⟩ := h lc s hs
    (by rw [← hc]; exact fun c hm => (hx c (hsub c hm)).1) hne
  rw [h1, visLoop_cards w cfg root inc f _ _ hcards, hc, e1]
  simp only [Res.bind_ok]
  have hp : s'.paths = o.paths := by
    rw [← closeKeyword_paths l' s', e5]; rfl
  rw [← hb, h3] at h'
  rw [blocks_at_header h' (fun x hm => hx x (by rw [h1]; simp [hm])) h2 l' s' e3 (by rw [e2]; exact hend)
    (by rcases e4 with h | h
        · exact .inl h
        · exact .inr (.inl h)) hp, e5, behind_assoc]

theorem namesFold_report (nm : Bytes) (ns : List (Nat × Bytes)) : ∀ (i : Nat) (s : Shared),
    namesFold (fun i _ s n => .ok (s.emit ⟨nm, some n, some i⟩)) i ns s =
      .ok { s with events := s.events ++ cardCalls nm i (ns.map Prod.snd) } := by
  induction ns with
  | nil => intro i s; simp [namesFold, cardCalls]
  | cons x xs ih =>
    intro i s
    simp only [namesFold, Res.bind_ok]
    rw [ih, List.map_cons, cardCalls_cons]
    simp [Shared.emit]

theorem block_reported {w : World} {cfg : Config} {root : Bytes}
    {inc : Bytes → Shared → Res Shared} {f : Bytes} {b : Block} {ps texts : List Bytes}
    (hne : b.cards ≠ []) (h : Reported cfg b texts) :
    BlockOk w cfg root inc f b ps { paths := ps, events := cardCalls b.name 0 texts } := by
  intro lc s hs h0 _
  have fin : ∀ (n lc' : Nat), 0 < n →
      closeKeyword ⟨b.name, n, lc', none⟩ { s with events := s.events ++ cardCalls b.name 0 texts } =
        s.behind { paths := ps, events := cardCalls b.name 0 texts } := by
    intro n lc' hn
    unfold closeKeyword
    rw [if_neg (fun hc => by have := hc.2; simp only at this; omega)]
    simp [Shared.behind, hs]
  cases h with
  | plain h =>
    obtain ⟨lc', e⟩ := plain_run (w := w) (cfg := cfg) (root := root) (inc := inc) (file := f)
      (fun l s cells hl _ => step_plain h l s cells hl) b.cards h0 0 lc s (Nat.le_refl 0)
    have hpos : 0 < b.cards.length := List.length_pos_iff.2 hne
    refine ⟨_, _, e, rfl, rfl, .inr ?_, fin _ _ (by omega)⟩
    show 0 + b.cards.length ≠ 0
    omega
  | names hcfg hname hn =>
    rename_i ns
    obtain ⟨lc', e⟩ := names_run (w := w) (cfg := cfg) (root := root) (inc := inc) (file := f)
      (nm := b.name) (fun i => step_namesOff hcfg hname i)
      (g := fun i _ s n => .ok (s.emit ⟨b.name, some n, some i⟩))
      (fun i line q s n => rfl) hn h0 0 lc s _ (namesFold_report b.name ns 0 s)
    have hpos := hn.pos hne
    refine ⟨_, _, e, rfl, rfl, .inr ?_, fin _ _ (by omega)⟩
    show 0 + ns.length ≠ 0
    omega
  | first hpre hms hother hcards hn =>
    rename_i c more line n
    have H : NameStep w cfg root inc f b.name 0 reportName := by
      intro l s cells hl hi
      rw [step_other hpre hms hother l s cells hl, if_pos hi]
      rfl
    have hz : ∀ x ∈ c, 0 ∉ x.2 := fun x hx => h0 x (by rw [hcards]; simp [hx])
    obtain ⟨q, hq⟩ := name_run H hn hz more s lc
    obtain ⟨lc', e⟩ := plain_run (w := w) (cfg := cfg) (root := root) (inc := inc) (file := f)
      (nm := b.name) (i0 := 1)
      (fun l s cells hl hi => by
        rw [step_other hpre hms hother l s cells hl, if_neg (by omega)])
      more (fun x hx => h0 x (by rw [hcards]; simp [hx])) 1 line
      (s.emit ⟨b.name, some n, some 0⟩) (Nat.le_refl 1)
    rw [hcards, hq]
    simp only [reportName, report, Res.bind_ok, Nat.zero_add]
    refine ⟨_, _, e, rfl, rfl, .inr (by show 1 + more.length ≠ 0; omega), ?_⟩
    have := fin (1 + more.length) lc' (by omega)
    rw [cardCalls_cons] at this ⊢
    rw [← this]
    simp [Shared.emit]

theorem block_includes {w : World} {cfg : Config} {root : Bytes}
    {inc : Bytes → Shared → Res Shared} {f : Bytes} {b : Block} {ns : List (Nat × Bytes)}
    {ps : List Bytes} {o : Shared} (hcfg : cfg.parseIncludes = true) (hname : b.name = bs "INCLUDE")
    (hne : b.cards ≠ []) (hn : Names b.cards ns)
    (h : ∀ s : Shared, s.paths = ps → includeAll w cfg inc f ns s = .ok (s.behind o)) :
    BlockOk w cfg root inc f b ps o := by
  intro lc s hs h0 _
  obtain ⟨lc', e⟩ := names_run (w := w) (cfg := cfg) (root := root) (inc := inc) (file := f)
    (nm := b.name) (fun i => step_include hcfg i (.inl hname))
    (g := fun _ line s n => includeFile w cfg inc f line s n)
    (fun i line q s n => rfl) hn h0 0 lc s _ (h s hs)
  have hpos := hn.pos hne
  refine ⟨_, _, e, rfl, rfl, .inr (by show 0 + ns.length ≠ 0; omega), ?_⟩
  unfold closeKeyword
  rw [if_neg (fun hc => by have := hc.2; simp only at this; omega)]

theorem includeAll_one {w : World} {cfg : Config} {inc : Bytes → Shared → Res Shared} {f : Bytes}
    {line : Nat} {n : Bytes} {s s' : Shared} (h : includeAll w cfg inc f [(line, n)] s = .ok s') :
    includeFile w cfg inc f line s n = .ok s' := by
  unfold includeAll at h
  simp only [namesFold] at h
  obtain ⟨s1, h1, h2⟩ := bind_ok_inv h
  cases h2
  exact h1

theorem block_binary {w : World} {cfg : Config} {root : Bytes}
    {inc : Bytes → Shared → Res Shared} {f : Bytes} {b : Block} {c more : List (Nat × Bytes)}
    {line : Nat} {n : Bytes} {ps : List Bytes} {o : Shared} (hcfg : cfg.parseIncludes = true)
    (hname : b.name = bs "INCLUDE_BINARY") (hcards : b.cards = c ++ more) (hn : IsName c line n)
    (h : ∀ s : Shared, s.paths = ps → includeAll w cfg inc f [(line, n)] s = .ok (s.behind o))
    (hlen : ∀ m ∈ more.mapIdx (fun i x => extraCardMsg f x.1 b.name (i + 2)), m.length < 1024) :
    BlockOk w cfg root inc f b ps (o.behind
      { paths := o.paths, warnings := more.mapIdx fun i x => extraCardMsg f x.1 b.name (i + 2) }) := by
  intro lc s hs h0 _
  have H := step_include (w := w) (cfg := cfg) (root := root) (inc := inc) (file := f)
    (nm := b.name) hcfg 0 (.inr ⟨rfl, .inl hname⟩)
  obtain ⟨q, hq⟩ := name_run H hn (fun x hx => h0 x (by rw [hcards]; simp [hx])) more s lc
  have hidx : (more.mapIdx fun i x => extraCardMsg f x.1 b.name (i + 2)) =
      more.mapIdx fun i x => extraCardMsg f x.1 b.name (1 + 1 + i) := by
    apply List.mapIdx_eq_mapIdx_iff.2
    intro j hj
    rw [show j + 2 = 1 + 1 + j by omega]
  rw [hidx] at hlen ⊢
  obtain ⟨lc', e⟩ := superfluous_run (w := w) (cfg := cfg) (root := root) (inc := inc) (file := f)
    (nm := b.name) (i0 := 1)
    (fun l s cells hl hi => by
      rw [step_binary hcfg l s cells (by rw [hl, hname]) (by omega), hname])
    more 1 line (s.behind o) (Nat.le_refl 1) hlen
  rw [hcards, hq]
  simp only [includeName]
  rw [includeAll_one (h s hs)]
  simp only [Res.bind_ok, Nat.zero_add]
  refine ⟨_, _, e, rfl, rfl, .inr (by show 1 + more.length ≠ 0; omega), ?_⟩
  unfold closeKeyword
  rw [if_neg (fun hc => by have := hc.2; simp only at this; omega)]
  simp [Shared.behind]

theorem block_nastran {w : World} {cfg : Config} {root : Bytes}
    {inc : Bytes → Shared → Res Shared} {f : Bytes} {b : Block} {c more : List (Nat × Bytes)}
    {line : Nat} {n : Bytes} {ps : List Bytes} {o : Shared} (hcfg : cfg.parseIncludes = true)
    (hname : b.name = bs "INCLUDE_NASTRAN") (hcards : b.cards = c ++ more) (hn : IsName c line n)
    (h : ∀ s : Shared, s.paths = ps → includeAll w cfg inc f [(line, n)] s = .ok (s.behind o))
    (hlen : ∀ m ∈ (more.drop 1).mapIdx (fun i x => extraCardMsg f x.1 b.name (i + 3)),
      m.length < 1024) :
    BlockOk w cfg root inc f b ps (o.behind
      { paths := o.paths,
        warnings := (more.drop 1).mapIdx fun i x => extraCardMsg f x.1 b.name (i + 3) }) := by
  intro lc s hs h0 _
  have H := step_include (w := w) (cfg := cfg) (root := root) (inc := inc) (file := f)
    (nm := b.name) hcfg 0 (.inr ⟨rfl, .inr hname⟩)
  obtain ⟨q, hq⟩ := name_run H hn (fun x hx => h0 x (by rw [hcards]; simp [hx])) more s lc
  rw [hcards, hq]
  simp only [includeName]
  rw [includeAll_one (h s hs)]
  simp only [Res.bind_ok, Nat.zero_add]
  cases more with
  | nil =>
    refine ⟨_, _, rfl, rfl, rfl, .inr (by simp), ?_⟩
    simp [closeKeyword, Shared.behind]
  | cons x xs =>
    simp only [List.drop_succ_cons, List.drop_zero] at hlen ⊢
    have hidx : (xs.mapIdx fun i x => extraCardMsg f x.1 b.name (i + 3)) =
        xs.mapIdx fun i x => extraCardMsg f x.1 b.name (2 + 1 + i) := by
      apply List.mapIdx_eq_mapIdx_iff.2
      intro j hj
      rw [show j + 3 = 2 + 1 + j by omega]
    rw [hidx] at hlen ⊢
    obtain ⟨lc', e⟩ := superfluous_run (w := w) (cfg := cfg) (root := root) (inc := inc) (file := f)
      (nm := b.name) (i0 := 2)
      (fun l s cells hl hi => by
        rw [step_nastran hcfg l s cells (by rw [hl, hname]) (by omega), hname,
          decide_eq_true (show l.cardIndex ≠ 1 by omega)])
      xs 2 x.1 (s.behind o) (Nat.le_refl 2) hlen
    simp only [cardsRun]
    rw [step_nastran hcfg _ _ _ hname (by simp)]
    simp only [superfluous, ne_eq, not_true, decide_false, Bool.false_eq_true, if_false, Res.bind_ok]
    refine ⟨_, _, e, rfl, rfl, .inr (by show 2 + xs.length ≠ 0; omega), ?_⟩
    unfold closeKeyword
    rw [if_neg (fun hc => by have := hc.2; simp only at this; omega)]
    simp [Shared.behind]

theorem noDirMsg_eq (f : Bytes) (line : Nat) (kind d : Bytes) :
    place f line ++ kind ++ bs " has not been found: \"" ++ d ++ bs "\"" = noDirMsg f line kind d := by
  unfold place noDirMsg; simp only [List.append_assoc]

/-- The effect of directory names. -/
def addDir (w : World) (kind : Bytes) (full : Bytes → Res Bytes) (f : Bytes) (line : Nat) (s : Shared)
    (name : Bytes) : Res Shared := do
  let path ← full name
  if w.isDir path then .ok { s with paths := s.paths ++ [path] }
  else s.warn (noDirMsg f line kind path)

theorem namesFold_dirs {w : World} {f kind : Bytes} {full : Bytes → Res Bytes}
    (ns dirs : List (Nat × Bytes)) (hl : dirs.map Prod.fst = ns.map Prod.fst)
    (hd : ns.map (fun n => full n.2) = dirs.map (fun d => .ok d.2))
    (hlen : ∀ d ∈ dirs, w.isDir d.2 = false → (noDirMsg f d.1 kind d.2).length < 1024) :
    ∀ (i : Nat) (s : Shared), namesFold (fun _ => addDir w kind full f) i ns s = .ok
      { s with
        paths := s.paths ++ (dirs.filter fun d => w.isDir d.2).map Prod.snd,
        warnings := s.warnings ++ (dirs.filter fun d => !w.isDir d.2).map fun d =>
          noDirMsg f d.1 kind d.2 } := by
  induction ns generalizing dirs with
  | nil =>
    intro i s
    cases dirs with
    | nil => simp [namesFold]
    | cons d ds => simp at hl
  | cons x xs ih =>
    intro i s
    cases dirs with
    | nil => simp at hl
    | cons d ds =>
      simp only [List.map_cons, List.cons.injEq] at hl hd
      have ih' := ih ds hl.2 hd.2 (fun e he => hlen e (by simp [he])) (i + 1)
      simp only [namesFold, addDir]
      rw [hd.1]
      simp only [Res.bind_ok]
      cases hdir : w.isDir d.2 with
      | true =>
        simp only [if_true, Res.bind_ok]
        rw [ih']
        simp [hdir]
      | false =>
        simp only [Bool.false_eq_true, if_false]
        rw [← hl.1, warn_ok s (hlen d (by simp) hdir)]
        simp only [Res.bind_ok]
        rw [ih']
        simp [hdir]

theorem block_path {w : World} {cfg : Config} {root : Bytes}
    {inc : Bytes → Shared → Res Shared} {f : Bytes} {b : Block} {ns dirs : List (Nat × Bytes)}
    {ps : List Bytes} (hcfg : cfg.parseIncludes = true) (hne : b.cards ≠ []) (hn : Names b.cards ns)
    (hdirs : (b.name = bs "INCLUDE_PATH" ∧ dirs = ns) ∨
      (b.name = bs "INCLUDE_PATH_RELATIVE" ∧ dirs.map Prod.fst = ns.map Prod.fst ∧
        ns.map (fun n => pathJoin root n.2) = dirs.map (fun d => .ok d.2)))
    (hlen : ∀ d ∈ dirs, w.isDir d.2 = false → (noDirMsg f d.1 b.name d.2).length < 1024) :
    BlockOk w cfg root inc f b ps
      { paths := ps ++ (dirs.filter fun d => w.isDir d.2).map Prod.snd,
        warnings := (dirs.filter fun d => !w.isDir d.2).map fun d => noDirMsg f d.1 b.name d.2 } := by
  intro lc s hs h0 _
  have key : ∀ (full : Bytes → Res Bytes),
      (∀ i, NameStep w cfg root inc f b.name i (pathName w b.name full f)) →
      dirs.map Prod.fst = ns.map Prod.fst → ns.map (fun n => full n.2) = dirs.map (fun d => .ok d.2) →
      ∃ lc', cardsRun w cfg root inc f b.cards ⟨b.name, 0, lc, none⟩ s =
        .ok (⟨b.name, 0 + ns.length, lc', none⟩,
          { s with
            paths := s.paths ++ (dirs.filter fun d => w.isDir d.2).map Prod.snd,
            warnings := s.warnings ++ (dirs.filter fun d => !w.isDir d.2).map fun d =>
              noDirMsg f d.1 b.name d.2 }) := by
    intro full H h1 h2
    refine names_run H (g := fun _ => addDir w b.name full f) ?_ hn h0 0 lc s _
      (namesFold_dirs ns dirs h1 h2 hlen 0 s)
    intro i line q s n
    unfold pathName addDir
    cases full n with
    | ok p =>
      simp only [Res.bind_ok]
      rw [noDirMsg_eq]
      split
      · rfl
      · rfl
    | err => rfl
    | ub => rfl
    | abort => rfl
  have hk : ∃ lc', cardsRun w cfg root inc f b.cards ⟨b.name, 0, lc, none⟩ s =
      .ok (⟨b.name, 0 + ns.length, lc', none⟩,
        { s with
          paths := s.paths ++ (dirs.filter fun d => w.isDir d.2).map Prod.snd,
          warnings := s.warnings ++ (dirs.filter fun d => !w.isDir d.2).map fun d =>
            noDirMsg f d.1 b.name d.2 }) := by
    rcases hdirs with ⟨hb, hd⟩ | ⟨hb, hd1, hd2⟩
    · refine key (fun n => .ok n) ?_ (by rw [hd]) (by rw [hd])
      rw [hb]; exact fun i => step_path hcfg i
    · refine key (fun n => pathJoin root n) ?_ hd1 hd2
      rw [hb]; exact fun i => step_pathRelative hcfg i
  obtain ⟨lc', e⟩ := hk
  have hpos := hn.pos hne
  refine ⟨_, _, e, rfl, rfl, .inr (by show 0 + ns.length ≠ 0; omega), ?_⟩
  unfold closeKeyword
  rw [if_neg (fun hc => by have := hc.2; simp only at this; omega)]
  simp [Shared.behind, hs]

theorem includeAll_cons {w : World} {cfg : Config} {inc : Bytes → Shared → Res Shared} {f : Bytes}
    {line : Nat} {n : Bytes} {ns : List (Nat × Bytes)} {s : Shared} :
    includeAll w cfg inc f ((line, n) :: ns) s =
      (includeFile w cfg inc f line s n >>= fun s' => includeAll w cfg inc f ns s') := by
  unfold includeAll
  simp only [namesFold]
  congr 1
  funext s'
  exact namesFold_index (fun i j => rfl) _ _ ns s'

theorem numberedFrom_mem {n : Nat} {texts : List Bytes} {x : Nat × Bytes}
    (h : x ∈ numberedFrom n texts) : x.2 ∈ texts ∧ x.2.head? ≠ some charComment := by
  induction texts generalizing n with
  | nil => cases h
  | cons t ts ih =>
    rw [numberedFrom] at h
    split at h
    · exact ⟨List.mem_cons_of_mem _ (ih h).1, (ih h).2⟩
    · rename_i hc
      rcases List.mem_cons.1 h with h | h
      · subst h; exact ⟨by simp, hc⟩
      · exact ⟨List.mem_cons_of_mem _ (ih h).1, (ih h).2⟩

theorem numberedFrom_nil {n : Nat} {texts : List Bytes} (h : numberedFrom n texts = []) :
    NoHeader texts := by
  induction texts generalizing n with
  | nil => intro v hv; cases hv
  | cons t ts ih =>
    rw [numberedFrom] at h
    split at h
    · rename_i hc
      have hv : visible t = none := by unfold visible; rw [if_pos hc]
      unfold NoHeader
      rw [List.filterMap_cons_none hv]
      exact ih h
    · cases h

theorem noHeader_numbered {n : Nat} {texts : List Bytes} (h : NoHeader texts)
    (hc : nextCards (numberedFrom n texts) = []) : numberedFrom n texts = [] := by
  induction texts generalizing n with
  | nil => rfl
  | cons t ts ih =>
    rw [numberedFrom] at hc ⊢
    split
    · rename_i hcm
      rw [if_pos hcm] at hc
      have hv : visible t = none := by unfold visible; rw [if_pos hcm]
      refine ih ?_ hc
      unfold NoHeader at h ⊢
      rwa [List.filterMap_cons_none hv] at h
    · rename_i hcm
      rw [if_neg hcm] at hc
      have hv : visible t = some (cut t) := by unfold visible; rw [if_neg hcm]; rfl
      have := h (cut t) (by rw [List.filterMap_cons_some hv]; simp)
      unfold nextCards at hc
      rw [List.takeWhile_cons] at hc
      simp [this] at hc

theorem parseFile_vis {w : World} {cfg : Config} {root f content : Bytes} {depth : Nat}
    (h : w.content f = some content) (hr : Readable w content) (s : Shared) :
    parseFile w cfg root (depth + 1) f s =
      visLoop w cfg root (parseFile w cfg root depth) f (numberedFrom 1 (textLines content)) {} s := by
  simp only [parseFile, h]
  rw [c41_lines_partial (by decide) hr.mem hr.size]
  simp only [Res.bind_ok]
  exact linesLoop_vis w cfg root _ f (textLines content)
    (fun t ht hx => hr.nul (textLines_mem ht hx))
    (fun t ht hh hc => (hr.header t ht hh hc).1) {} s

theorem linesOk_of_readable {w : World} {content : Bytes} (hr : Readable w content) (n : Nat) :
    LinesOk (numberedFrom n (textLines content)) := by
  intro x hx
  obtain ⟨h1, h2⟩ := numberedFrom_mem hx
  exact ⟨fun h0 => hr.nul (textLines_mem h1 h0), fun hh => (hr.header x.2 h1 hh h2).2⟩

theorem file_ok {w : World} {cfg : Config} {root f content : Bytes} {depth : Nat} {ps : List Bytes}
    {o : Shared} (h : w.content f = some content) (hr : Readable w content)
    (hsome : fileBlocks content ≠ [] ∨ ¬ NoHeader (textLines content))
    (hb : BlocksOk w cfg root (parseFile w cfg root depth) f (fileBlocks content) ps o) :
    TaskOk w cfg root (depth + 1) (.file f) ps o := by
  intro s hs
  rw [parseFile_vis h hr]
  have hlo := linesOk_of_readable hr 1
  by_cases hc : nextCards (numberedFrom 1 (textLines content)) = []
  · have hfb : fileBlocks content = numberedBlocks (numberedFrom 1 (textLines content)) := by
      unfold fileBlocks; dsimp only; rw [if_pos hc]; rfl
    rw [hfb] at hb hsome
    have := blocks_at_header hb hlo hc {} s rfl (by decide) (.inr (.inr ?_)) hs
    · rw [this]; rfl
    · intro e
      rcases hsome with hx | hx
      · apply hx; rw [e]; rfl
      · exact hx (numberedFrom_nil e)
  · have hfb : fileBlocks content = ⟨[], nextCards (numberedFrom 1 (textLines content))⟩ ::
        numberedBlocks (numberedFrom 1 (textLines content)) := by
      unfold fileBlocks; dsimp only; rw [if_neg hc]; rfl
    rw [hfb] at hb
    exact hb (numberedFrom 1 (textLines content)) 0 s hlo rfl rfl
      (show ([] : Bytes) ≠ bs "END" by decide) (.inr hc) hs

theorem means_ok {w : World} {cfg : Config} {root : Bytes} {t : Task} {ps : List Bytes} {o : Shared}
    (h : Means w cfg root t ps o) : ∃ D, ∀ depth, D ≤ depth → TaskOk w cfg root depth t ps o := by
  induction h with
  | unreadable h hlen =>
    refine ⟨1, fun depth hd => ?_⟩
    obtain ⟨d, rfl⟩ : ∃ d, depth = d + 1 := ⟨depth - 1, by omega⟩
    intro s hs
    simp only [parseFile, h]
    rw [show bs "Failed to open key file: " ++ w.openError = openMsg w from rfl, error_ok s hlen]
    simp [Shared.behind, hs]
  | file h hr hsome _ ih =>
    obtain ⟨D, ih⟩ := ih
    refine ⟨D + 1, fun depth hd => ?_⟩
    obtain ⟨d, rfl⟩ : ∃ d, depth = d + 1 := ⟨depth - 1, by omega⟩
    exact file_ok h hr hsome (ih d (by omega))
  | empty h hr hb hn =>
    rename_i f content ps
    refine ⟨1, fun depth hd => ?_⟩
    obtain ⟨d, rfl⟩ : ∃ d, depth = d + 1 := ⟨depth - 1, by omega⟩
    intro s hs
    rw [parseFile_vis h hr]
    have hc : nextCards (numberedFrom 1 (textLines content)) = [] := by
      unfold fileBlocks at hb
      by_cases hc : nextCards (numberedFrom 1 (textLines content)) = []
      · exact hc
      · simp [hc] at hb
    rw [noHeader_numbered hn hc]
    simp [visLoop, finish, Shared.emit, Shared.behind, hs, show ([] : Bytes) ≠ bs "END" by decide]
  | nil => exact ⟨0, fun depth _ => rfl⟩
  | cons _ _ ih ih' =>
    obtain ⟨D, ih⟩ := ih
    obtain ⟨D', ih'⟩ := ih'
    exact ⟨max D D', fun depth hd => blocks_cons (ih depth (by omega)) (ih' depth (by omega))⟩
  | noCards =>
    rename_i f name ps
    refine ⟨0, fun depth _ => ?_⟩
    intro lc s hs _ hne
    have hn : name ≠ [] := by
      rcases hne with h | h
      · exact h
      · exact absurd rfl h
    refine ⟨_, _, rfl, rfl, rfl, .inl hn, ?_⟩
    simp [closeKeyword, hn, Shared.emit, Shared.behind, hs]
  | reported hne h => exact ⟨0, fun depth _ => block_reported hne h⟩
  | includes hcfg hname hne hn _ ih =>
    obtain ⟨D, ih⟩ := ih
    exact ⟨D, fun depth hd => block_includes hcfg hname hne hn (ih depth hd)⟩
  | binary hcfg hname hcards hn _ hlen ih =>
    obtain ⟨D, ih⟩ := ih
    exact ⟨D, fun depth hd => block_binary hcfg hname hcards hn (ih depth hd) hlen⟩
  | nastran hcfg hname hcards hn _ hlen ih =>
    obtain ⟨D, ih⟩ := ih
    exact ⟨D, fun depth hd => block_nastran hcfg hname hcards hn (ih depth hd) hlen⟩
  | path hcfg hne hn hdirs hlen => exact ⟨0, fun depth _ => block_path hcfg hne hn hdirs hlen⟩
  | done =>
    refine ⟨0, fun depth _ => ?_⟩
    intro s hs
    subst hs
    show Res.ok s = _
    rw [behind_self]
  | found hf _ _ ih ih' =>
    obtain ⟨D, ih⟩ := ih
    obtain ⟨D', ih'⟩ := ih'
    refine ⟨max D D', fun depth hd => ?_⟩
    intro s hs
    rw [includeAll_cons]
    unfold includeFile
    rw [hs, resolve_found hf]
    simp only [Res.bind_ok]
    rw [ih depth (by omega) s hs]
    simp only [Res.bind_ok]
    rw [ih' depth (by omega) (s.behind _) rfl, behind_assoc]
  | notFound hf hlen _ ih =>
    rename_i f line n ns ps o' _
    obtain ⟨D, ih⟩ := ih
    refine ⟨D, fun depth hd => ?_⟩
    intro s hs
    rw [includeAll_cons]
    unfold includeFile
    rw [hs, resolve_notFound hf]
    simp only [Res.bind_ok]
    rw [notFoundMsg_eq]
    cases hig : cfg.ignoreNotFound with
    | true =>
      simp only [if_true]
      rw [warn_ok s hlen]
      simp only [Res.bind_ok]
      rw [ih depth hd { s with warnings := s.warnings ++ [noFileMsg f line n] } hs, ← behind_assoc]
      simp [Shared.behind]
    | false =>
      simp only [Bool.false_eq_true, if_false]
      rw [error_ok s hlen]
      simp only [Res.bind_ok]
      rw [ih depth hd { s with errors := s.errors ++ [noFileMsg f line n] } hs, ← behind_assoc]
      simp [Shared.behind]

/-! ## The root folder -/

theorem backSep_next {s : Bytes} {l : Nat} (hl : s[l]? = some SEP) (h : backSep s l ≠ 0) :
    s[backSep s l + 1]? = some SEP := by
  induction l with
  | zero => simp [backSep] at h
  | succ n ih =>
    rw [backSep, if_pos hl] at h ⊢
    by_cases hn : s[n]? = some SEP
    · exact ih hn h
    · cases n with
      | zero => simp [backSep] at h
      | succ m => rw [backSep, if_neg hn] at h ⊢; exact hl

theorem lastSep_at (s pre : Bytes) (last : Option Nat)
    (hlast : ∀ l, last = some l → (pre ++ s)[l]? = some SEP) (l : Nat)
    (h : lastSepFrom s pre.length last = some l) : (pre ++ s)[l]? = some SEP := by
  induction s generalizing pre last with
  | nil => exact hlast l h
  | cons c cs ih =>
    rw [lastSepFrom] at h
    have := ih (pre ++ [c]) (if c = SEP then some pre.length else last) (by
      intro k hk
      rw [List.append_assoc, List.singleton_append]
      split at hk
      · rename_i hc
        cases hk
        simp [hc]
      · exact hlast k hk) (by simpa using h)
    rwa [List.append_assoc, List.singleton_append] at this

/-- Moving up from an absolute path ends at a separator. -/
theorem pathMoveUp_sep {s : Bytes} (h0 : s.head? = some SEP) {i : Nat} (h : pathMoveUp s = some i) :
    s[i]? = some SEP := by
  have hz : s[0]? = some SEP := by rw [← List.head?_eq_getElem?]; exact h0
  unfold pathMoveUp at h
  cases hl : lastSepFrom s 0 none with
  | none => rw [hl] at h; cases h
  | some l =>
    rw [hl] at h
    simp only at h
    have hls : s[l]? = some SEP := lastSep_at s [] none (by intro l h; cases h) l hl
    have key : ∀ k, s[k]? = some SEP →
        s[if backSep s k ≠ 0 then backSep s k + 1 else backSep s k]? = some SEP := by
      intro k hk
      by_cases hb : backSep s k = 0
      · simp [hb, hz]
      · rw [if_pos hb]; exact backSep_next hk hb
    split at h
    · split at h
      · cases h
      · cases h
        apply key
        have hle := backSep_le s l
        have hlt : l < s.length := (List.getElem?_eq_some_iff.1 hls).1
        exact (backNonSep_spec s (backSep s l) (by omega) hz).2.1
    · cases h
      exact key l hls

/-- The absolute path of the file. -/
def absoluteComponents (w : World) (file : Bytes) : List Bytes :=
  if file.head? = some SEP then components file else components w.cwd ++ components file

theorem take_sep_components {s : Bytes} {i : Nat} (h : s[i]? = some SEP) :
    components (s.take (i + 1)) = components (s.take i) := by
  obtain ⟨hi, hs⟩ := List.getElem?_eq_some_iff.1 h
  rw [take_succ_getElem s i hi, hs, components_snoc_sep]

theorem moveUp_none_components {file : Bytes} (hne : file ≠ []) (hlast : file.getLast? ≠ some SEP)
    (h : pathMoveUp file = none) : components file = [file] := by
  unfold pathMoveUp at h
  rcases lastSepFrom_spec file 0 none with ⟨h1, _⟩ | ⟨a, b, h1, h2, h3⟩
  · exact components_noSep file h1 hne
  · rw [h3] at h
    simp only [Nat.zero_add] at h
    have hb : ¬ a.length + 1 = file.length := by
      intro e
      apply hlast
      have : b = [] := by rw [h1] at e; simp at e; exact e
      rw [h1, this]; simp
    rw [if_neg hb] at h
    cases h

theorem head_take {s : Bytes} {i : Nat} (h : s.head? = some SEP) : (s.take (i + 1)).head? = some SEP := by
  cases s with
  | nil => cases h
  | cons c cs => simpa using h

/-- C68, the root folder to which INCLUDE_PATH_RELATIVE refers: for every file name that does not end
with a separator it is the directory of the main file (not the one of the file with the keyword). -/
theorem c68_root (w : World) (file : Bytes) (hcwd : w.cwd.head? = some SEP) (hne : file ≠ [])
    (hlast : file.getLast? ≠ some SEP) :
    ∃ root, rootFolder w file = .ok root ∧ root.head? = some SEP ∧
      components root = (absoluteComponents w file).dropLast := by
  have hcne : w.cwd ≠ [] := by intro e; rw [e] at hcwd; cases hcwd
  unfold rootFolder absoluteComponents
  cases hm : pathMoveUp file with
  | none =>
    have hc := moveUp_none_components hne hlast hm
    have hrel : ¬ file.head? = some SEP := by
      intro hh
      have := (c06_path_move_up_partial file hh).1.1 hm
      rw [hc] at this; cases this
    refine ⟨w.cwd, rfl, hcwd, ?_⟩
    rw [if_neg hrel, hc]; simp
  | some i =>
    simp only
    by_cases ha : file.head? = some SEP
    · rw [if_pos ha, if_pos ha]
      refine ⟨_, rfl, head_take ha, ?_⟩
      rw [take_sep_components (pathMoveUp_sep ha hm)]
      exact (c06_path_move_up_partial file ha).2 i hm
    · rw [if_neg ha, if_neg ha]
      obtain ⟨full, h1, h2⟩ := pathJoin_components w.cwd file hcne
      have hfull : full.head? = some SEP := by
        unfold pathJoin at h1
        rw [if_neg hcne] at h1
        simp only [Res.ok.injEq] at h1
        rw [← h1]
        cases hc : w.cwd with
        | nil => exact absurd hc hcne
        | cons x xs => rw [hc] at hcwd; simpa using hcwd
      rw [h1]
      simp only [Res.bind_ok]
      cases hm2 : pathMoveUp full with
      | some j =>
        refine ⟨_, rfl, head_take hfull, ?_⟩
        rw [take_sep_components (pathMoveUp_sep hfull hm2), ← h2]
        exact (c06_path_move_up_partial full hfull).2 j hm2
      | none =>
        exfalso
        obtain ⟨root, hr⟩ := rootFolder_ok w file hcwd
        unfold rootFolder at hr
        rw [hm] at hr
        simp only at hr
        rw [if_neg ha, h1] at hr
        simp only [Res.bind_ok, hm2] at hr
        cases hr

/-- C68: if a file means `o` when it is parsed with the search paths of the user (the working
directory, then the extra paths of the configuration), then exactly these calls, errors and warnings
result, in this order. `root` is the directory of the file (`c68_root`). The recursion of the code is
limited by nothing but the stack, `D` is the nesting depth of the include files. -/
theorem c68_meaning (w : World) (cfg : Config) (file root : Bytes) (o : Shared)
    (hopen : w.content file ≠ none) (hroot : rootFolder w file = .ok root)
    (h : Means w cfg root (.file file) (w.cwd :: cfg.extraPaths) o) :
    ∃ D, ∀ depth, D ≤ depth → parseTop w cfg depth file = .ok o := by
  obtain ⟨D, hD⟩ := means_ok h
  refine ⟨D, fun depth hd => ?_⟩
  unfold parseTop
  cases hc : w.content file with
  | none => exact absurd hc hopen
  | some content =>
    simp only
    rw [hroot]
    simp only [Res.bind_ok]
    rw [hD depth hd { paths := w.cwd :: cfg.extraPaths } rfl]
    simp [Shared.behind]

/-- C68: a meaning is unique. -/
theorem c68_unique (w : World) (cfg : Config) (root file : Bytes) (ps : List Bytes) (o o' : Shared)
    (h : Means w cfg root (.file file) ps o) (h' : Means w cfg root (.file file) ps o') : o = o' := by
  obtain ⟨D, hD⟩ := means_ok h
  obtain ⟨D', hD'⟩ := means_ok h'
  have e1 := hD (max D D') (by omega) { paths := ps } rfl
  have e2 := hD' (max D D') (by omega) { paths := ps } rfl
  rw [e1] at e2
  have e3 := Res.ok.inj e2
  cases o
  cases o'
  simpa [Shared.behind] using e3

instance (t : Bytes) : Decidable (HeaderOk t) := by unfold HeaderOk; infer_instance

theorem readable_small {w : World} {c : Bytes} (h0 : 0 ∉ c) (hs : c.length < chunkSize) (hne : c ≠ [])
    (hh : ∀ t ∈ textLines c, isHeader (cut t) = true → t.head? ≠ some charComment →
      HeaderOk t ∧ headerName (cut t) ≠ []) : Readable w c :=
  ⟨h0, .inr hs, fun hd => by
    have := Nat.le_of_dvd (List.length_pos_iff.2 hne) hd
    omega, hh⟩

/-- Main file, two include files and two directories (test). -/
def meaningWorld : World where
  content f := if f = bs "/w/main.k" then some (bs
      "*NODE\n1 $ c\n$ x\n*INCLUDE_PATH_RELATIVE\n inc \nnone\n*INCLUDE\nlong +\nname.k\nc.k\n*INCLUDE_BINARY\nb.bin\nx\n*PART\n*END\n*X\n")
    else if f = bs "/w/inc/longname.k" then some (bs "*SET\n7\n8\n")
    else if f = bs "/w/b.bin" then some (bs "$\n") else none
  openError := bs "?"
  isFile f := decide (f = bs "/w/main.k" ∨ f = bs "/w/inc/longname.k" ∨ f = bs "/w/b.bin")
  isDir f := decide (f = bs "/w/inc" ∨ f = bs "/w")
  cwd := bs "/w"
  mem := fun _ => 0

/-- A single line as a file name. -/
theorem IsName.line (line : Nat) (t : Bytes) (hc : charComment ∉ t)
    (hl : t.drop (t.length - 2) ≠ contMark) (h2 : 2 ≤ (t.dropWhile (· = charBlank)).length) :
    IsName [(line, t)] line (trimmed t) := by
  have h := IsName.name [] line t (by simp) hl
    (Nat.le_trans h2 (List.dropWhile_suffix _).length_le) (by simpa using h2)
  simpa [hc] using h

-- non-vacuity of C68 (test)
example : ∃ o, Means meaningWorld {} (bs "/w/") (.file (bs "/w/main.k")) [bs "/w"] o ∧
    rootFolder meaningWorld (bs "/w/main.k") = .ok (bs "/w/") ∧
    o = ⟨[bs "/w", bs "/w/inc"],
      [⟨bs "NODE", some (bs "1 "), some 0⟩, ⟨bs "SET", some (bs "7"), some 0⟩,
        ⟨bs "SET", some (bs "8"), some 1⟩, ⟨[], none, none⟩, ⟨bs "PART", none, none⟩],
      [bs "/w/main.k:10: \"c.k\" could not be found"],
      [bs "/w/main.k:6: INCLUDE_PATH_RELATIVE has not been found: \"/w/none\"",
       bs "/w/main.k:13: Invalid number of cards (2) for INCLUDE_BINARY keyword"]⟩ := by
  refine ⟨_, ?_, by decide +kernel, rfl⟩
  have hb : fileBlocks (bs
      "*NODE\n1 $ c\n$ x\n*INCLUDE_PATH_RELATIVE\n inc \nnone\n*INCLUDE\nlong +\nname.k\nc.k\n*INCLUDE_BINARY\nb.bin\nx\n*PART\n*END\n*X\n") =
      [⟨bs "NODE", [(2, bs "1 $ c")]⟩, ⟨bs "INCLUDE_PATH_RELATIVE", [(5, bs " inc "), (6, bs "none")]⟩,
        ⟨bs "INCLUDE", [(8, bs "long +"), (9, bs "name.k"), (10, bs "c.k")]⟩,
        ⟨bs "INCLUDE_BINARY", [(12, bs "b.bin"), (13, bs "x")]⟩, ⟨bs "PART", []⟩] := by decide +kernel
  have hb1 : fileBlocks (bs "*SET\n7\n8\n") = [⟨bs "SET", [(2, bs "7"), (3, bs "8")]⟩] := by
    decide +kernel
  have n1 : IsName [(5, bs " inc ")] 5 (bs "inc") := IsName.line 5 (bs " inc ") (by decide +kernel)
    (by decide +kernel) (by decide +kernel)
  have n2 : IsName [(6, bs "none")] 6 (bs "none") := IsName.line 6 (bs "none") (by decide +kernel)
    (by decide +kernel) (by decide +kernel)
  have n3 : IsName [(10, bs "c.k")] 10 (bs "c.k") := IsName.line 10 (bs "c.k") (by decide +kernel)
    (by decide +kernel) (by decide +kernel)
  have n4 : IsName [(12, bs "b.bin")] 12 (bs "b.bin") := IsName.line 12 (bs "b.bin")
    (by decide +kernel) (by decide +kernel) (by decide +kernel)
  have n5 : IsName [(8, bs "long +"), (9, bs "name.k")] 9 (bs "longname.k") :=
    IsName.name [(8, bs "long")] 9 (bs "name.k") (by decide +kernel) (by decide +kernel)
      (by decide +kernel) (by decide +kernel)
  have set : Means meaningWorld {} (bs "/w/") (.file (bs "/w/inc/longname.k")) [bs "/w", bs "/w/inc"] _ :=
    .file (content := bs "*SET\n7\n8\n") (by decide +kernel)
      (readable_small (by decide +kernel) (by decide +kernel) (by decide +kernel) (by decide +kernel))
      (.inl (by decide +kernel))
      (by rw [hb1]; exact .cons (.reported (by decide) (.plain (.inl (by decide +kernel)))) .nil)
  have bin : Means meaningWorld {} (bs "/w/") (.file (bs "/w/b.bin")) [bs "/w", bs "/w/inc"] _ :=
    .empty (content := bs "$\n") (by decide +kernel)
      (readable_small (by decide +kernel) (by decide +kernel) (by decide +kernel) (by decide +kernel))
      (by decide +kernel) (by decide +kernel)
  have main : Means meaningWorld {} (bs "/w/") (.file (bs "/w/main.k")) [bs "/w"] _ :=
    .file (by rfl)
      (readable_small (by decide +kernel) (by decide +kernel) (by decide +kernel) (by decide +kernel))
      (.inl (by rw [hb]; simp))
      (by
        rw [hb]
        refine .cons (.reported (by decide) (.plain (.inl (by decide +kernel)))) <|
          .cons (.path (ns := [(5, bs "inc"), (6, bs "none")])
            (dirs := [(5, bs "/w/inc"), (6, bs "/w/none")]) rfl (by decide)
            (.cons n1 (.cons n2 .nil)) (.inr ⟨rfl, by decide +kernel, by decide +kernel⟩)
            (by decide +kernel)) <|
          .cons (.includes (ns := [(9, bs "longname.k"), (10, bs "c.k")]) rfl rfl (by decide)
            (.cons n5 (.cons n3 .nil)) (.found (full := bs "/w/inc/longname.k")
              ⟨[bs "/w"], bs "/w/inc", [], by decide +kernel, by decide +kernel, by decide +kernel,
                fun q hq => ⟨bs "/w/longname.k", ?_, by decide +kernel⟩⟩ set
              (.notFound ?_ (by decide +kernel) .done))) <|
          .cons (.binary (c := [(12, bs "b.bin")]) (more := [(13, bs "x")]) rfl rfl rfl n4
            (.found (full := bs "/w/b.bin") ⟨[], bs "/w", [bs "/w/inc"], by decide +kernel,
              by decide +kernel, by decide +kernel, fun q hq => by cases hq⟩ bin .done)
            (by decide +kernel)) <|
          .cons .noCards .nil
        · rw [List.mem_singleton] at hq; subst hq; decide +kernel
        · intro q hq
          have hq' : q = bs "/w" ∨ q = bs "/w/inc" := by simpa [Shared.behind] using hq
          rcases hq' with h | h
          · exact ⟨bs "/w/c.k", by rw [h]; decide +kernel, by decide +kernel⟩
          · exact ⟨bs "/w/inc/c.k", by rw [h]; decide +kernel, by decide +kernel⟩)
  refine Eq.mp (congrArg _ ?_) main
  decide +kernel

end Dyna.Key
