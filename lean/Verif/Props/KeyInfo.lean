import Verif.KeyInfo
import Verif.Props.KeyMeaning
/-!
# Property C83: the position that a callback gets

The specification reads the lines of the file that is named in the call.
-/

namespace Dyna.Key

/-! ## Specification -/

/-- Specification: a keyword line. -/
def IsKw (t : Bytes) : Bool := decide (t.head? ≠ some charComment) && isHeader (cut t)

/-- Specification: a card line: neither a comment nor a keyword. -/
def IsCard (t : Bytes) : Bool := decide (t.head? ≠ some charComment) && !isHeader (cut t)

/-- Specification: the name of the last keyword in the lines `before`, empty if there is none. -/
def nameAt (before : List Bytes) : Bytes :=
  match before.reverse.find? IsKw with
  | some t => headerName (cut t)
  | none => []

/-- Specification: the number of card lines behind the last keyword in the lines `before`. -/
def cardsSince (before : List Bytes) : Nat :=
  (before.reverse.takeWhile (fun t => !IsKw t)).countP IsCard

/-- Specification: no line ends with the character that can mark a continued file name. -/
def NoPlus (before : List Bytes) : Prop := ∀ t ∈ before, t.getLast? ≠ some charPlus

/-- Specification: there is no `*END` in the lines. -/
def NoEnd (before : List Bytes) : Prop := ∀ t ∈ before, IsKw t = true → headerName (cut t) ≠ bs "END"

/-- Specification: the call for a card has the number of the line of the card (the lines are counted
from one): this line is a card line, the name is the one of the last keyword in front of it, and if it
is not an INCLUDE keyword the card is this line without comment and the index is the number of cards
between. -/
def PlacedCard (texts : List Bytes) (line : Nat) (name text : Bytes) (i : Nat) : Prop :=
  0 < line ∧ NoEnd (texts.take (line - 1)) ∧ nameAt (texts.take (line - 1)) = name ∧
  ∃ t, texts[line - 1]? = some t ∧ IsCard t = true ∧
    (¬ bs "INCLUDE" <+: name → i = cardsSince (texts.take (line - 1)) ∧
      (NoPlus (texts.take (line - 1)) → text = cut t))

/-- Specification: the call for a keyword without cards. Its number is the one of the next keyword, or the
number of lines if it is the last keyword. -/
def PlacedKeyword (texts : List Bytes) (line : Nat) (name : Bytes) : Prop :=
  (0 < line ∧ NoEnd (texts.take (line - 1)) ∧ nameAt (texts.take (line - 1)) = name ∧ name ≠ [] ∧
    (∃ t, texts[line - 1]? = some t ∧ IsKw t = true) ∧
    (¬ bs "INCLUDE" <+: name → cardsSince (texts.take (line - 1)) = 0)) ∨
  (line = texts.length ∧ NoEnd texts ∧ nameAt texts = name ∧
    (¬ bs "INCLUDE" <+: name → cardsSince texts = 0))

/-- Specification: where a call belongs to. -/
def PlacedIn (texts : List Bytes) (line : Nat) (ev : KeyEvent) : Prop :=
  match ev.index with
  | some i => ∃ text, ev.card = some text ∧ PlacedCard texts line ev.name text i
  | none => PlacedKeyword texts line ev.name

/-- Specification: a call belongs to the file that it names. -/
def Placed (w : World) (c : Call) : Prop :=
  ∃ content, w.content c.info.file = some content ∧
    (Readable w content → PlacedIn (textLines content) c.info.line c.event)

/-- Specification: a file that was found in one of the directories. -/
def FoundIn (w : World) (paths : List Bytes) (file : Bytes) : Prop :=
  ∃ p ∈ paths, ∃ name, pathJoin p name = .ok file ∧ w.isFile file = true

/-! ## Without the structures the calls are those of C43 and C68 -/

theorem bind_base {α : Type} (r : Res α) (f : α → Res (Local × SharedI)) (g : α → Res (Local × Shared))
    (h : ∀ a, (do let x ← f a; .ok (x.1, x.2.base)) = g a) :
    (do let x ← (do let a ← r; f a); .ok (x.1, x.2.base)) = (do let a ← r; g a) := by
  cases r with
  | ok a => exact h a
  | err => rfl
  | ub => rfl
  | abort => rfl

theorem warn_base (s : SharedI) (m : Bytes) : (do let x ← s.warn m; .ok x.base) = s.base.warn m := by
  unfold SharedI.warn Shared.warn pushF
  simp only [SharedI.base]
  split <;> rfl

theorem error_base (s : SharedI) (m : Bytes) : (do let x ← s.error m; .ok x.base) = s.base.error m := by
  unfold SharedI.error Shared.error pushF
  simp only [SharedI.base]
  split <;> rfl

theorem emit_base (s : SharedI) (file : Bytes) (line : Nat) (root : Bytes) (ev : KeyEvent) :
    (s.emit file line root ev).base = s.base.emit ev := by
  simp [SharedI.emit, SharedI.base, Shared.emit]

theorem reportI_base (file root : Bytes) (l : Local) (s : SharedI) (text : Bytes) :
    ((reportI file root l s text).1, (reportI file root l s text).2.base) = report l s.base text := by
  unfold reportI report
  simp only [emit_base]
  rfl

theorem multiReportI_base (file root : Bytes) (l : Local) (s : SharedI) (cells : Bytes) :
    (do let x ← multiReportI file root l s cells; .ok (x.1, x.2.base)) = multiReport l s.base cells := by
  unfold multiReportI multiReport
  refine bind_base _ _ _ fun m => ?_
  cases m with
  | more t => rfl
  | done t => simp only [Res.bind_ok]; rw [reportI_base]

theorem includePathI_base (w : World) (kind : Bytes) (full : Bytes → Res Bytes) (file : Bytes) (l : Local)
    (s : SharedI) (cells : Bytes) :
    (do let x ← includePathI w kind full file l s cells; .ok (x.1, x.2.base)) =
      includePath w kind full file l s.base cells := by
  unfold includePathI includePath
  refine bind_base _ _ _ fun m => ?_
  cases m with
  | more t => rfl
  | done name =>
    simp only
    refine bind_base _ _ _ fun p => ?_
    split
    · rfl
    · rw [← warn_base]
      cases s.warn _ <;> rfl

theorem superfluousI_base (kind : Bytes) (b : Bool) (file : Bytes) (l : Local) (s : SharedI) :
    (do let x ← superfluousI kind b file l s; .ok (x.1, x.2.base)) = superfluous kind b file l s.base := by
  unfold superfluousI superfluous
  cases b
  · rfl
  · simp only [if_true]
    rw [← warn_base]
    cases s.warn _ <;> rfl

/-- Auxiliary: the same function up to the structures. -/
def SameInc (inc : Bytes → SharedI → Res SharedI) (inc' : Bytes → Shared → Res Shared) : Prop :=
  ∀ f s, (do let x ← inc f s; .ok x.base) = inc' f s.base

theorem includeFileI_base {w : World} {cfg : Config} {inc : Bytes → SharedI → Res SharedI}
    {inc' : Bytes → Shared → Res Shared} (h : SameInc inc inc') (file : Bytes) (line : Nat) (s : SharedI)
    (name : Bytes) :
    (do let x ← includeFileI w cfg inc file line s name; .ok x.base) =
      includeFile w cfg inc' file line s.base name := by
  unfold includeFileI includeFile
  change _ = (resolve w s.paths name >>= _)
  cases resolve w s.paths name with
  | ok m =>
    simp only [Res.bind_ok]
    cases m with
    | some full => exact h full s
    | none =>
      simp only
      split
      · exact warn_base _ _
      · exact error_base _ _
  | err => rfl
  | ub => rfl
  | abort => rfl

theorem cardStepI_base {w : World} {cfg : Config} {root : Bytes} {inc : Bytes → SharedI → Res SharedI}
    {inc' : Bytes → Shared → Res Shared} (h : SameInc inc inc') (file : Bytes) (l : Local) (s : SharedI)
    (cells : Bytes) :
    (do let x ← cardStepI w cfg root inc file l s cells; .ok (x.1, x.2.base)) =
      cardStep w cfg root inc' file l s.base cells := by
  have hrep : ∀ l t, (do let x ← (.ok (reportI file root l s t) : Res (Local × SharedI)); .ok (x.1, x.2.base)) =
      .ok (report l s.base t) := by
    intro l t; rw [← reportI_base file root]; rfl
  unfold cardStepI cardStep
  split
  · split
    · unfold includeCardI includeCard
      split
      · refine bind_base _ _ _ fun m => ?_
        cases m with
        | more t => rfl
        | done name =>
          simp only
          rw [← includeFileI_base h]
          cases includeFileI w cfg inc file l.lineCount s name <;> rfl
      · split
        · exact includePathI_base _ _ _ _ _ _ _
        · split
          · exact includePathI_base _ _ _ _ _ _ _
          · split
            · exact superfluousI_base _ _ _ _ _
            · split
              · exact superfluousI_base _ _ _ _ _
              · split
                · exact hrep _ _
                · split
                  · exact multiReportI_base _ _ _ _ _
                  · exact hrep _ _
    · unfold includeCardOffI includeCardOff
      split
      · exact hrep _ _
      · split
        · exact multiReportI_base _ _ _ _ _
        · exact hrep _ _
  · exact hrep _ _

theorem closeKeywordI_base (file root : Bytes) (l : Local) (s : SharedI) :
    (closeKeywordI file root l s).base = closeKeyword l s.base := by
  unfold closeKeywordI closeKeyword
  split
  · exact emit_base _ _ _ _ _
  · rfl

theorem finishI_base (file root : Bytes) (l : Local) (s : SharedI) :
    (finishI file root l s).base = finish l s.base := by
  unfold finishI finish
  split
  · exact emit_base _ _ _ _ _
  · rfl

theorem linesLoopI_base {w : World} {cfg : Config} {root : Bytes} {inc : Bytes → SharedI → Res SharedI}
    {inc' : Bytes → Shared → Res Shared} (h : SameInc inc inc') (file : Bytes) (lines : List Line) :
    ∀ (l : Local) (s : SharedI),
    (do let x ← linesLoopI w cfg root inc file lines l s; .ok (x.1, x.2.base)) =
      linesLoop w cfg root inc' file lines l s.base := by
  induction lines with
  | nil => intro l s; rfl
  | cons line lines ih =>
    intro l s
    simp only [linesLoopI, linesLoop]
    split
    · exact ih _ _
    · split
      · refine bind_base _ _ _ fun name => ?_
        rw [← closeKeywordI_base file root]
        split
        · rfl
        · exact ih _ _
      · rw [← cardStepI_base h]
        cases cardStepI w cfg root inc file { l with lineCount := l.lineCount + 1 } s (lineCells line) with
        | ok r => exact ih r.1 r.2
        | err => rfl
        | ub => rfl
        | abort => rfl

theorem parseFileI_base (w : World) (cfg : Config) (root : Bytes) (depth : Nat) :
    SameInc (parseFileI w cfg root depth) (parseFile w cfg root depth) := by
  induction depth with
  | zero => intro f s; rfl
  | succ depth ih =>
    intro f s
    simp only [parseFileI, parseFile]
    cases w.content f with
    | none => exact error_base _ _
    | some content =>
      simp only
      cases fileLines chunkSize w.mem content with
      | ok lines =>
        simp only [Res.bind_ok]
        rw [← linesLoopI_base ih]
        cases linesLoopI w cfg root (parseFileI w cfg root depth) f lines {} s with
        | ok r => simp only [Res.bind_ok]; rw [finishI_base]
        | err => rfl
        | ub => rfl
        | abort => rfl
      | err => rfl
      | ub => rfl
      | abort => rfl

/-- C83: without the structures the calls, errors and warnings are those of the parser of C43, C53 and C68. -/
theorem c83_same_calls (w : World) (cfg : Config) (depth : Nat) (file : Bytes) :
    (do let x ← parseTopI w cfg depth file; .ok x.base) = parseTop w cfg depth file := by
  unfold parseTopI parseTop
  cases w.content file with
  | none => rfl
  | some content =>
    simp only
    cases rootFolder w file with
    | ok root => exact parseFileI_base w cfg root depth file _
    | err => rfl
    | ub => rfl
    | abort => rfl

/-! ## One card -/

/-- Auxiliary: what a card can cause. -/
inductive CardOut (w : World) (root : Bytes) (inc : Bytes → SharedI → Res SharedI) (file : Bytes) (l : Local)
    (s : SharedI) (cells : Bytes) (l' : Local) (s' : SharedI) : Prop
  | report (text : Bytes)
      (hs : s' = s.emit file l.lineCount root ⟨l.name, some text, some l.cardIndex⟩)
      (hi : l'.cardIndex = l.cardIndex + 1) (hp : l'.pending = none)
      (ht : ¬ bs "INCLUDE" <+: l.name → l.pending = none → text = cstr cells)
  | silent (hinc : bs "INCLUDE" <+: l.name) (hc : s'.calls = s.calls)
      (hp : s'.paths = s.paths ∨ ∃ p, s'.paths = s.paths ++ [p] ∧ w.isDir p = true)
  | inc (hinc : bs "INCLUDE" <+: l.name) (name full : Bytes)
      (hr : resolve w s.paths name = .ok (some full)) (h : inc full s = .ok s')

theorem multiEnd_plus {t u : Bytes} (h : multiEnd t = .ok (.more u)) : t.getLast? = some charPlus := by
  unfold multiEnd at h
  split at h
  · cases h
  · split at h
    · rename_i h1 h2
      have : t = t.take (t.length - 2) ++ [charBlank, charPlus] := by
        rw [← h2, List.take_append_drop]
      rw [this]; simp
    · cases h

theorem dropWhile_getLast {p : Nat → Bool} : ∀ {t : Bytes} {c : Nat}, (t.dropWhile p).getLast? = some c →
    t.getLast? = some c := by
  intro t
  induction t with
  | nil => intro c h; exact h
  | cons a t ih =>
    intro c h
    rw [List.dropWhile_cons] at h
    split at h
    · have := ih h
      rw [List.getLast?_cons, this]; rfl
    · exact h

theorem multiLine_more {cells u : Bytes} (h : multiLine none cells = .ok (.more u)) :
    cells.getLast? = some charPlus := by
  unfold multiLine at h
  dsimp only at h
  split at h
  · cases h
  · exact dropWhile_getLast (multiEnd_plus h)

theorem warn_keeps {s s' : SharedI} {m : Bytes} (h : s.warn m = .ok s') :
    s'.calls = s.calls ∧ s'.paths = s.paths := by
  unfold SharedI.warn at h
  obtain ⟨x, _, h2⟩ := bind_ok_inv h
  cases h2; exact ⟨rfl, rfl⟩

theorem error_keeps {s s' : SharedI} {m : Bytes} (h : s.error m = .ok s') :
    s'.calls = s.calls ∧ s'.paths = s.paths := by
  unfold SharedI.error at h
  obtain ⟨x, _, h2⟩ := bind_ok_inv h
  cases h2; exact ⟨rfl, rfl⟩

/-- Auxiliary: the outcome of a card. -/
structure CardRes (w : World) (root : Bytes) (inc : Bytes → SharedI → Res SharedI) (file : Bytes) (l : Local)
    (s : SharedI) (cells : Bytes) (l' : Local) (s' : SharedI) : Prop where
  line : l'.lineCount = l.lineCount
  name : l'.name = l.name
  pending : l.pending = none → cells.getLast? ≠ some charPlus → l'.pending = none
  out : CardOut w root inc file l s cells l' s'

theorem cardStepI_res {w : World} {cfg : Config} {root : Bytes} {inc : Bytes → SharedI → Res SharedI}
    {file cells : Bytes} {l l' : Local} {s s' : SharedI}
    (h : cardStepI w cfg root inc file l s cells = .ok (l', s')) :
    CardRes w root inc file l s cells l' s' := by
  have hrep : ∀ t, .ok (reportI file root l s t) = (.ok (l', s') : Res (Local × SharedI)) →
      (¬ bs "INCLUDE" <+: l.name → t = cstr cells) → CardRes w root inc file l s cells l' s' := by
    intro t h ht
    unfold reportI at h
    simp only [Res.ok.injEq, Prod.mk.injEq] at h
    obtain ⟨rfl, rfl⟩ := h
    refine ⟨rfl, rfl, fun _ _ => rfl, .report _ rfl rfl rfl ?_⟩
    intro hn hp
    rw [hp]; exact ht hn
  have hsome : ∀ {p : Bool}, startsWith l.name (bs "INCLUDE") = true → bs "INCLUDE" <+: l.name := by
    intro _ h; exact List.isPrefixOf_iff_prefix.1 h
  have hmr : bs "INCLUDE" <+: l.name → multiReportI file root l s cells = .ok (l', s') →
      CardRes w root inc file l s cells l' s' := by
    intro hi h
    unfold multiReportI at h
    obtain ⟨m, h1, h2⟩ := bind_ok_inv h
    cases m with
    | more t =>
      simp only [Res.ok.injEq, Prod.mk.injEq] at h2
      obtain ⟨rfl, rfl⟩ := h2
      refine ⟨rfl, rfl, ?_, .silent hi rfl (.inl rfl)⟩
      intro hp hg
      rw [hp] at h1
      exact absurd (multiLine_more h1) hg
    | done t =>
      unfold reportI at h2
      simp only [Res.ok.injEq, Prod.mk.injEq] at h2
      obtain ⟨rfl, rfl⟩ := h2
      exact ⟨rfl, rfl, fun _ _ => rfl, .report _ rfl rfl rfl (fun hn => absurd hi hn)⟩
  have hip : ∀ kind full, bs "INCLUDE" <+: l.name → includePathI w kind full file l s cells = .ok (l', s') →
      CardRes w root inc file l s cells l' s' := by
    intro kind full hi h
    unfold includePathI at h
    obtain ⟨m, h1, h2⟩ := bind_ok_inv h
    cases m with
    | more t =>
      simp only [Res.ok.injEq, Prod.mk.injEq] at h2
      obtain ⟨rfl, rfl⟩ := h2
      refine ⟨rfl, rfl, ?_, .silent hi rfl (.inl rfl)⟩
      intro hp hg
      rw [hp] at h1
      exact absurd (multiLine_more h1) hg
    | done n =>
      simp only at h2
      obtain ⟨p, _, h3⟩ := bind_ok_inv h2
      split at h3
      · rename_i hd
        simp only [Res.ok.injEq, Prod.mk.injEq] at h3
        obtain ⟨rfl, rfl⟩ := h3
        exact ⟨rfl, rfl, fun _ _ => rfl, .silent hi rfl (.inr ⟨p, rfl, hd⟩)⟩
      · obtain ⟨s1, h4, h5⟩ := bind_ok_inv h3
        simp only [Res.ok.injEq, Prod.mk.injEq] at h5
        obtain ⟨rfl, rfl⟩ := h5
        obtain ⟨k1, k2⟩ := warn_keeps h4
        exact ⟨rfl, rfl, fun _ _ => rfl, .silent hi k1 (.inl k2)⟩
  have hsf : ∀ kind warn, bs "INCLUDE" <+: l.name → superfluousI kind warn file l s = .ok (l', s') →
      CardRes w root inc file l s cells l' s' := by
    intro kind warn hi h
    unfold superfluousI at h
    cases warn
    · simp only [Bool.false_eq_true, if_false, Res.bind_ok, Res.ok.injEq, Prod.mk.injEq] at h
      obtain ⟨rfl, rfl⟩ := h
      exact ⟨rfl, rfl, fun hp _ => hp, .silent hi rfl (.inl rfl)⟩
    · simp only [if_true] at h
      obtain ⟨s1, h4, h5⟩ := bind_ok_inv h
      simp only [Res.ok.injEq, Prod.mk.injEq] at h5
      obtain ⟨rfl, rfl⟩ := h5
      obtain ⟨k1, k2⟩ := warn_keeps h4
      exact ⟨rfl, rfl, fun hp _ => hp, .silent hi k1 (.inl k2)⟩
  unfold cardStepI at h
  split at h
  · rename_i hpre
    have hi : bs "INCLUDE" <+: l.name := List.isPrefixOf_iff_prefix.1 hpre
    split at h
    · unfold includeCardI at h
      split at h
      · obtain ⟨m, h1, h2⟩ := bind_ok_inv h
        cases m with
        | more t =>
          simp only [Res.ok.injEq, Prod.mk.injEq] at h2
          obtain ⟨rfl, rfl⟩ := h2
          refine ⟨rfl, rfl, ?_, .silent hi rfl (.inl rfl)⟩
          intro hp hg
          rw [hp] at h1
          exact absurd (multiLine_more h1) hg
        | done name =>
          simp only at h2
          obtain ⟨s1, h3, h4⟩ := bind_ok_inv h2
          simp only [Res.ok.injEq, Prod.mk.injEq] at h4
          obtain ⟨rfl, rfl⟩ := h4
          refine ⟨rfl, rfl, fun _ _ => rfl, ?_⟩
          unfold includeFileI at h3
          obtain ⟨m, h5, h6⟩ := bind_ok_inv h3
          cases m with
          | some full => exact .inc hi name full h5 h6
          | none =>
            simp only at h6
            split at h6
            · obtain ⟨k1, k2⟩ := warn_keeps h6
              exact .silent hi k1 (.inl k2)
            · obtain ⟨k1, k2⟩ := error_keeps h6
              exact .silent hi k1 (.inl k2)
      · split at h
        · exact hip _ _ hi h
        · split at h
          · exact hip _ _ hi h
          · split at h
            · exact hsf _ _ hi h
            · split at h
              · exact hsf _ _ hi h
              · split at h
                · exact hrep _ h (fun _ => rfl)
                · split at h
                  · exact hmr hi h
                  · exact hrep _ h (fun _ => rfl)
    · unfold includeCardOffI at h
      split at h
      · exact hrep _ h (fun _ => rfl)
      · split at h
        · exact hmr hi h
        · exact hrep _ h (fun _ => rfl)
  · exact hrep _ h (fun _ => rfl)

/-! ## The new calls -/

/-- Auxiliary: `s'` is `s` after the calls `new`, all of which are from `file` or from files that have been
found. -/
structure Ext (w : World) (root file : Bytes) (s s' : SharedI) (new : List Call) : Prop where
  calls : s'.calls = s.calls ++ new
  paths : s.paths <+: s'.paths
  dirs : ∀ p ∈ s'.paths, p ∈ s.paths ∨ w.isDir p = true
  between : ∀ c ∈ new, s.paths <+: c.info.paths ∧ c.info.paths <+: s'.paths
  order : new.Pairwise (fun a b => a.info.paths <+: b.info.paths)
  roots : ∀ c ∈ new, c.info.root = root
  files : ∀ c ∈ new, c.info.file = file ∨ FoundIn w c.info.paths c.info.file
  placed : ∀ c ∈ new, Placed w c

theorem Ext.refl' {w : World} {root file : Bytes} {s s' : SharedI} (hc : s'.calls = s.calls)
    (hp : s'.paths = s.paths) : Ext w root file s s' [] where
  calls := by simp [hc]
  paths := by rw [hp]; exact List.prefix_refl _
  dirs := by intro p h; rw [hp] at h; exact .inl h
  between := by simp
  order := List.Pairwise.nil
  roots := by simp
  files := by simp
  placed := by simp

theorem Ext.trans {w : World} {root file : Bytes} {s s1 s2 : SharedI} {a b : List Call}
    (h : Ext w root file s s1 a) (h' : Ext w root file s1 s2 b) : Ext w root file s s2 (a ++ b) where
  calls := by rw [h'.calls, h.calls, List.append_assoc]
  paths := h.paths.trans h'.paths
  dirs := by
    intro p hp
    rcases h'.dirs p hp with h1 | h1
    · exact h.dirs p h1
    · exact .inr h1
  between := by
    intro c hc
    rcases List.mem_append.1 hc with hc | hc
    · exact ⟨(h.between c hc).1, (h.between c hc).2.trans h'.paths⟩
    · exact ⟨h.paths.trans (h'.between c hc).1, (h'.between c hc).2⟩
  order := by
    rw [List.pairwise_append]
    refine ⟨h.order, h'.order, ?_⟩
    intro x hx y hy
    exact (h.between x hx).2.trans (h'.between y hy).1
  roots := by
    intro c hc
    rcases List.mem_append.1 hc with hc | hc
    · exact h.roots c hc
    · exact h'.roots c hc
  files := by
    intro c hc
    rcases List.mem_append.1 hc with hc | hc
    · exact h.files c hc
    · exact h'.files c hc
  placed := by
    intro c hc
    rcases List.mem_append.1 hc with hc | hc
    · exact h.placed c hc
    · exact h'.placed c hc

theorem Ext.emit {w : World} {root file : Bytes} (s : SharedI) (line : Nat) (ev : KeyEvent)
    (h : Placed w ⟨⟨file, line, s.paths, root⟩, ev⟩) :
    Ext w root file s (s.emit file line root ev) [⟨⟨file, line, s.paths, root⟩, ev⟩] where
  calls := rfl
  paths := List.prefix_refl _
  dirs := fun _ h => .inl h
  between := by
    intro c hc
    rw [List.mem_singleton] at hc
    subst hc
    exact ⟨List.prefix_refl _, List.prefix_refl _⟩
  order := List.pairwise_singleton _ _
  roots := by
    intro c hc
    rw [List.mem_singleton] at hc
    subst hc; rfl
  files := by
    intro c hc
    rw [List.mem_singleton] at hc
    subst hc; exact .inl rfl
  placed := by
    intro c hc
    rw [List.mem_singleton] at hc
    subst hc; exact h

theorem resolve_some {w : World} {name full : Bytes} : ∀ {paths : List Bytes},
    resolve w paths name = .ok (some full) → ∃ p ∈ paths, pathJoin p name = .ok full ∧ w.isFile full = true := by
  intro paths
  induction paths with
  | nil => intro h; cases h
  | cons p ps ih =>
    intro h
    simp only [resolve] at h
    obtain ⟨f, h1, h2⟩ := bind_ok_inv h
    split at h2
    · rename_i hf
      simp only [Res.ok.injEq, Option.some.injEq] at h2
      subst h2
      exact ⟨p, by simp, h1, hf⟩
    · obtain ⟨q, hq, h3⟩ := ih h2
      exact ⟨q, by simp [hq], h3⟩

/-! ## The lines of a file -/

/-- Auxiliary: the local variables after the lines `before`. -/
structure AtLine (before : List Bytes) (l : Local) : Prop where
  line : l.lineCount = before.length
  name : l.name = nameAt before
  index : ¬ bs "INCLUDE" <+: l.name → l.cardIndex = cardsSince before
  pending : NoPlus before → l.pending = none
  noEnd : NoEnd before

theorem nameAt_snoc (before : List Bytes) (t : Bytes) :
    nameAt (before ++ [t]) = if IsKw t then headerName (cut t) else nameAt before := by
  unfold nameAt
  rw [List.reverse_append, List.reverse_singleton, List.singleton_append, List.find?_cons]
  cases IsKw t <;> rfl

theorem cardsSince_snoc (before : List Bytes) (t : Bytes) :
    cardsSince (before ++ [t]) =
      if IsKw t then 0 else cardsSince before + (if IsCard t then 1 else 0) := by
  unfold cardsSince
  rw [List.reverse_append, List.reverse_singleton, List.singleton_append, List.takeWhile_cons]
  cases h : IsKw t
  · simp only [Bool.not_false, if_true, List.countP_cons, Bool.false_eq_true, if_false]
  · simp

theorem NoPlus.left {a : List Bytes} {t : Bytes} (h : NoPlus (a ++ [t])) : NoPlus a :=
  fun x hx => h x (by simp [hx])

theorem isKw_comment {t : Bytes} (h : t.head? = some charComment) : IsKw t = false ∧ IsCard t = false := by
  simp [IsKw, IsCard, h]

theorem cellsOf_getLast {t : Bytes} (h : (cellsOf t).getLast? = some charPlus) : t.getLast? = some charPlus := by
  unfold cellsOf lineCells at h
  split at h
  · rename_i i hi
    simp only at h hi
    rw [List.getLast?_eq_getElem?] at h ⊢
    rw [List.length_set, List.getElem?_set] at h
    split at h
    · split at h
      · cases h
      · cases h
    · exact h
  · exact h

theorem NoEnd.snoc {a : List Bytes} {t : Bytes} (h : NoEnd a)
    (ht : IsKw t = true → headerName (cut t) ≠ bs "END") : NoEnd (a ++ [t]) := by
  intro x hx
  rcases List.mem_append.1 hx with hx | hx
  · exact h x hx
  · rw [List.mem_singleton] at hx; subst hx; exact ht

/-- Auxiliary: what is known while a file is read: if it is readable, which lines have been read. -/
def Reading (w : World) (content : Bytes) (lines : List Line) (l : Local) : Prop :=
  Readable w content → ∃ before rest, textLines content = before ++ rest ∧
    lines = rest.map (fun t => ⟨t, commentOf t⟩) ∧ AtLine before l

/-- Auxiliary: included files are parsed as required. -/
def IncOk (w : World) (root : Bytes) (inc : Bytes → SharedI → Res SharedI) : Prop :=
  ∀ f s s', inc f s = .ok s' → ∃ new, Ext w root f s s' new

theorem linesLoopI_ext {w : World} {cfg : Config} {root : Bytes} {inc : Bytes → SharedI → Res SharedI}
    (hinc : IncOk w root inc) {file content : Bytes} (hfile : w.content file = some content) (lines : List Line) :
    ∀ {l l' : Local} {s s' : SharedI}, linesLoopI w cfg root inc file lines l s = .ok (l', s') →
      Reading w content lines l →
      (∃ new, Ext w root file s s' new) ∧ (l'.name = bs "END" ∨ Reading w content [] l') := by
  induction lines with
  | nil =>
    intro l l' s s' h hr
    simp only [linesLoopI, Res.ok.injEq, Prod.mk.injEq] at h
    obtain ⟨rfl, rfl⟩ := h
    exact ⟨⟨[], Ext.refl' rfl rfl⟩, .inr hr⟩
  | cons line lines ih =>
    intro l l' s s' h hr
    simp only [linesLoopI] at h
    -- what is known about this line
    have hline : Readable w content → ∃ before t rest, textLines content = before ++ t :: rest ∧
        line = ⟨t, commentOf t⟩ ∧ lines = rest.map (fun t => ⟨t, commentOf t⟩) ∧ AtLine before l ∧ 0 ∉ t ∧
        (isHeader (cut t) = true → t.head? ≠ some charComment → HeaderOk t) := by
      intro hR
      obtain ⟨before, rest, h1, h2, h3⟩ := hr hR
      cases rest with
      | nil => cases h2
      | cons t rest =>
        simp only [List.map_cons, List.cons.injEq] at h2
        have ht : t ∈ textLines content := by rw [h1]; simp
        exact ⟨before, t, rest, h1, h2.1, h2.2, h3, fun h0 => hR.nul (textLines_mem ht h0),
          fun hh hc => (hR.header t ht hh hc).1⟩
    split at h
    · rename_i hcm
      refine ih h ?_
      intro hR
      obtain ⟨before, t, rest, h1, h2, h3, h4, _⟩ := hline hR
      subst h2
      have hc := (commentOf_zero t).1 hcm
      obtain ⟨k1, k2⟩ := isKw_comment hc
      refine ⟨before ++ [t], rest, by rw [h1]; simp, h3, ?_, ?_, ?_, ?_, ?_⟩
      · simp [h4.line]
      · simp [nameAt_snoc, k1, h4.name]
      · intro hn
        simp [cardsSince_snoc, k1, k2, h4.index hn]
      · intro hp; exact h4.pending hp.left
      · exact h4.noEnd.snoc (by simp [k1])
    · rename_i hcm
      split at h
      · rename_i hkw
        obtain ⟨name, hnm, h⟩ := bind_ok_inv h
        have hkwl : Readable w content → ∃ before t rest, textLines content = before ++ t :: rest ∧
            lines = rest.map (fun t => ⟨t, commentOf t⟩) ∧ AtLine before l ∧ IsKw t = true ∧
            name = headerName (cut t) := by
          intro hR
          obtain ⟨before, t, rest, h1, h2, h3, h4, h5, h6⟩ := hline hR
          subst h2
          have hc : t.head? ≠ some charComment := fun hx => hcm ((commentOf_zero t).2 hx)
          rw [isKeyword_eq] at hkw
          have hh : isHeader (cut t) = true := hkw
          rw [keywordName_eq t h5 hkw (h6 hh hc)] at hnm
          cases hnm
          refine ⟨before, t, rest, h1, h3, h4, ?_, rfl⟩
          unfold IsKw
          rw [hh]
          simp [hc]
        have hclose : ∃ new, Ext w root file s
            (closeKeywordI file root { l with lineCount := l.lineCount + 1 } s) new := by
          unfold closeKeywordI
          split
          · rename_i hcl
            refine ⟨_, Ext.emit s _ _ ⟨content, hfile, ?_⟩⟩
            intro hR
            obtain ⟨before, t, rest, h1, _, h4, h5, _⟩ := hkwl hR
            have htk : (textLines content).take (l.lineCount + 1 - 1) = before := by
              rw [h1, h4.line]; simp
            refine .inl ?_
            refine ⟨by simp, ?_, ?_, hcl.1, ⟨t, ?_, h5⟩, ?_⟩
            · simp only [htk]; exact h4.noEnd
            · simp only [htk]; exact h4.name.symm
            · simp only [h1, h4.line]; simp
            · intro hn; simp only [htk]
              rw [← h4.index hn]; exact hcl.2
          · exact ⟨[], Ext.refl' rfl rfl⟩
        obtain ⟨new, hnew⟩ := hclose
        split at h
        · rename_i hend
          simp only [Res.ok.injEq, Prod.mk.injEq] at h
          obtain ⟨rfl, rfl⟩ := h
          exact ⟨⟨new, hnew⟩, .inl hend⟩
        · rename_i hend
          obtain ⟨⟨new2, hnew2⟩, hl⟩ := ih h (by
            intro hR
            obtain ⟨before, t, rest, h1, h3, h4, h5, h6⟩ := hkwl hR
            refine ⟨before ++ [t], rest, by rw [h1]; simp, h3, ?_, ?_, ?_, ?_, ?_⟩
            · simp [h4.line]
            · simp [nameAt_snoc, h5, h6]
            · intro _; simp [cardsSince_snoc, h5]
            · intro hp; exact h4.pending hp.left
            · exact h4.noEnd.snoc (fun _ => by rw [← h6]; exact hend))
          exact ⟨⟨new ++ new2, hnew.trans hnew2⟩, hl⟩
      · rename_i hkw
        obtain ⟨⟨l1, s1⟩, h1, h2⟩ := bind_ok_inv h
        have hcr := cardStepI_res h1
        have hcardl : Readable w content → ∃ before t rest, textLines content = before ++ t :: rest ∧
            lines = rest.map (fun t => ⟨t, commentOf t⟩) ∧ AtLine before l ∧ IsKw t = false ∧ IsCard t = true ∧
            lineCells line = cellsOf t ∧ cstr (cellsOf t) = cut t := by
          intro hR
          obtain ⟨before, t, rest, k1, k2, h3, h4, h5, h6⟩ := hline hR
          subst k2
          have hc : t.head? ≠ some charComment := fun hx => hcm ((commentOf_zero t).2 hx)
          rw [isKeyword_eq] at hkw
          have hh : ¬ isHeader (cut t) = true := hkw
          refine ⟨before, t, rest, k1, h3, h4, ?_, ?_, rfl, cellsOf_cstr h5⟩
          · unfold IsKw; simp [hh]
          · unfold IsCard; simp [hh, hc]
        have hstep : ∃ new, Ext w root file s s1 new := by
          rcases hcr.out with ⟨text, hs, hi, hp, ht⟩ | ⟨hi, hc, hp⟩ | ⟨hi, nm, full, hrs, hin⟩
          · rw [hs]
            refine ⟨_, Ext.emit s _ _ ⟨content, hfile, ?_⟩⟩
            intro hR
            obtain ⟨before, t, rest, g1, _, g4, g5, g6, g7, g8⟩ := hcardl hR
            have htk : (textLines content).take (l.lineCount + 1 - 1) = before := by
              rw [g1, g4.line]; simp
            refine ⟨text, rfl, ?_⟩
            refine ⟨by simp, ?_, ?_, t, ?_, g6, ?_⟩
            · simp only [htk]; exact g4.noEnd
            · simp only [htk]; exact g4.name.symm
            · simp only [g1, g4.line]; simp
            · intro hn
              simp only [htk]
              refine ⟨g4.index hn, fun hpl => ?_⟩
              rw [ht hn (g4.pending hpl), g7, g8]
          · rcases hp with hp | ⟨p, hp, hd⟩
            · exact ⟨[], Ext.refl' hc hp⟩
            · refine ⟨[], ⟨(by simp [hc]), ?_, ?_, (by simp), List.Pairwise.nil, (by simp), (by simp), (by simp)⟩⟩
              · rw [hp]; exact List.prefix_append _ _
              · intro q hq
                rw [hp] at hq
                rcases List.mem_append.1 hq with hq | hq
                · exact .inl hq
                · rw [List.mem_singleton] at hq; subst hq; exact .inr hd
          · obtain ⟨new, hx⟩ := hinc full s s1 hin
            obtain ⟨p, hp, hj, hf⟩ := resolve_some hrs
            refine ⟨new, { hx with files := ?_ }⟩
            intro c hc
            rcases hx.files c hc with h | h
            · right
              rw [h]
              exact ⟨p, (hx.between c hc).1.subset hp, nm, hj, hf⟩
            · exact .inr h
        obtain ⟨new, hnew⟩ := hstep
        obtain ⟨⟨new2, hnew2⟩, hl⟩ := ih h2 (by
          intro hR
          obtain ⟨before, t, rest, g1, g3, g4, g5, g6, g7, g8⟩ := hcardl hR
          refine ⟨before ++ [t], rest, by rw [g1]; simp, g3, ?_, ?_, ?_, ?_, ?_⟩
          · rw [hcr.line]; simp [g4.line]
          · rw [hcr.name]; simp [nameAt_snoc, g5, g4.name]
          · intro hn
            rw [hcr.name] at hn
            rcases hcr.out with ⟨text, hs, hi, hp, ht⟩ | ⟨hi, hc, hp⟩ | ⟨hi, nm, full, hrs, hin⟩
            · rw [hi]; simp [cardsSince_snoc, g5, g6]; exact g4.index hn
            · exact absurd hi hn
            · exact absurd hi hn
          · intro hp
            refine hcr.pending (g4.pending hp.left) ?_
            rw [g7]
            intro hx
            exact hp t (by simp) (cellsOf_getLast hx)
          · exact g4.noEnd.snoc (by simp [g5]))
        exact ⟨⟨new ++ new2, hnew.trans hnew2⟩, hl⟩

theorem parseFileI_ext (w : World) (cfg : Config) (root : Bytes) (depth : Nat) :
    IncOk w root (parseFileI w cfg root depth) := by
  induction depth with
  | zero => intro f s s' h; cases h
  | succ depth ih =>
    intro f s s' h
    simp only [parseFileI] at h
    cases hc : w.content f with
    | none =>
      rw [hc] at h
      obtain ⟨k1, k2⟩ := error_keeps h
      exact ⟨[], Ext.refl' k1 k2⟩
    | some content =>
      rw [hc] at h
      simp only at h
      obtain ⟨lines, h1, h2⟩ := bind_ok_inv h
      obtain ⟨⟨l, s1⟩, h3, h4⟩ := bind_ok_inv h2
      simp only [Res.ok.injEq] at h4
      subst h4
      obtain ⟨⟨new, hnew⟩, hl⟩ := linesLoopI_ext ih hc lines h3 (by
        intro hR
        rw [c41_lines_partial (by decide) hR.mem hR.size] at h1
        cases h1
        exact ⟨[], textLines content, rfl, rfl, rfl, rfl, fun _ => rfl, fun _ => rfl, fun _ h => by cases h⟩)
      unfold finishI
      split
      · rename_i hf
        refine ⟨new ++ [_], hnew.trans (Ext.emit s1 _ _ ⟨content, hc, ?_⟩)⟩
        intro hR
        rcases hl with hl | hl
        · exact absurd hl hf.2
        · obtain ⟨before, rest, g1, g2, g3⟩ := hl hR
          cases rest with
          | cons t ts => cases g2
          | nil =>
            rw [List.append_nil] at g1
            refine .inr ?_
            rw [g1]
            exact ⟨g3.line, g3.noEnd, g3.name.symm, fun hn => by rw [← g3.index hn]; exact hf.1⟩
      · exact ⟨new, hnew⟩

theorem parseTopI_ext {w : World} {cfg : Config} {depth : Nat} {file : Bytes} {s : SharedI}
    (h : parseTopI w cfg depth file = .ok s) (hopen : w.content file ≠ none) :
    ∃ root, rootFolder w file = .ok root ∧ Ext w root file { paths := w.cwd :: cfg.extraPaths } s s.calls := by
  unfold parseTopI at h
  cases hc : w.content file with
  | none => exact absurd hc hopen
  | some content =>
    rw [hc] at h
    simp only at h
    obtain ⟨root, h1, h2⟩ := bind_ok_inv h
    obtain ⟨new, hnew⟩ := parseFileI_ext w cfg root depth file _ s h2
    refine ⟨root, h1, ?_⟩
    have : s.calls = new := by rw [hnew.calls]; rfl
    rw [this]; exact hnew

/-! ## Theorems -/

/-- C83: every call with a card names a file and the line of this file that is the card. -/
theorem c83_card (w : World) (cfg : Config) (depth : Nat) (file content : Bytes) (s : SharedI)
    (h : parseTopI w cfg depth file = .ok s) (c : Call) (hc : c ∈ s.calls) (text : Bytes) (i : Nat)
    (hcard : c.event.card = some text) (hi : c.event.index = some i)
    (hfile : w.content c.info.file = some content) (hr : Readable w content) :
    PlacedCard (textLines content) c.info.line c.event.name text i := by
  by_cases hopen : w.content file = none
  · unfold parseTopI at h
    rw [hopen] at h
    cases h
    cases hc
  · obtain ⟨root, _, hx⟩ := parseTopI_ext h hopen
    obtain ⟨content', h1, h2⟩ := hx.placed c hc
    rw [hfile] at h1
    cases h1
    have := h2 hr
    unfold PlacedIn at this
    rw [hi] at this
    obtain ⟨text', h3, h4⟩ := this
    rw [hcard] at h3
    cases h3
    exact h4

/-- C83, part: every call for a keyword without cards names the file in which the keyword is. The line is not
that of the keyword but that of the next keyword, or the last line of the file (`c83_not_own_line`). -/
theorem c83_keyword_partial (w : World) (cfg : Config) (depth : Nat) (file content : Bytes) (s : SharedI)
    (h : parseTopI w cfg depth file = .ok s) (c : Call) (hc : c ∈ s.calls) (hi : c.event.index = none)
    (hfile : w.content c.info.file = some content) (hr : Readable w content) :
    PlacedKeyword (textLines content) c.info.line c.event.name := by
  by_cases hopen : w.content file = none
  · unfold parseTopI at h
    rw [hopen] at h
    cases h
    cases hc
  · obtain ⟨root, _, hx⟩ := parseTopI_ext h hopen
    obtain ⟨content', h1, h2⟩ := hx.placed c hc
    rw [hfile] at h1
    cases h1
    have := h2 hr
    unfold PlacedIn at this
    rw [hi] at this
    exact this

/-- C83: all calls have the root folder of the file that the user has passed; the search paths are the working
directory, the additional ones and then existing directories, and no later call has fewer; every file is the one
that the user has passed or one that exists in one of the search paths. -/
theorem c83_paths (w : World) (cfg : Config) (depth : Nat) (file : Bytes) (s : SharedI)
    (h : parseTopI w cfg depth file = .ok s) :
    (∀ c ∈ s.calls, rootFolder w file = .ok c.info.root) ∧
    (∀ c ∈ s.calls, w.cwd :: cfg.extraPaths <+: c.info.paths ∧
      ∀ p ∈ c.info.paths, p ∈ w.cwd :: cfg.extraPaths ∨ w.isDir p = true) ∧
    s.calls.Pairwise (fun a b => a.info.paths <+: b.info.paths) ∧
    (∀ c ∈ s.calls, c.info.file = file ∨ FoundIn w c.info.paths c.info.file) ∧
    (∀ c ∈ s.calls, w.content c.info.file ≠ none) := by
  by_cases hopen : w.content file = none
  · unfold parseTopI at h
    rw [hopen] at h
    cases h
    exact ⟨(by simp), (by simp), List.Pairwise.nil, (by simp), (by simp)⟩
  · obtain ⟨root, h1, hx⟩ := parseTopI_ext h hopen
    refine ⟨?_, ?_, hx.order, hx.files, ?_⟩
    · intro c hc; rw [hx.roots c hc]; exact h1
    · intro c hc
      obtain ⟨h2, h3⟩ := hx.between c hc
      exact ⟨h2, fun p hp => hx.dirs p (h3.subset hp)⟩
    · intro c hc
      obtain ⟨content, h2, _⟩ := hx.placed c hc
      rw [h2]; simp

/-- C83, violation, for all files: the line of a call for a keyword without cards is the line of another
keyword, or the last line. -/
theorem c83_not_own_line (w : World) (cfg : Config) (depth : Nat) (file content : Bytes) (s : SharedI)
    (h : parseTopI w cfg depth file = .ok s) (c : Call) (hc : c ∈ s.calls) (hi : c.event.index = none)
    (hfile : w.content c.info.file = some content) (hr : Readable w content)
    (hlast : c.info.line < (textLines content).length) :
    ∃ k t u, k + 1 < c.info.line ∧ (textLines content)[k]? = some t ∧ IsKw t = true ∧
      headerName (cut t) = c.event.name ∧ (textLines content)[c.info.line - 1]? = some u ∧ IsKw u = true := by
  rcases c83_keyword_partial w cfg depth file content s h c hc hi hfile hr with h1 | h1
  · obtain ⟨g1, _, g2, g3, ⟨u, g4, g5⟩, _⟩ := h1
    unfold nameAt at g2
    split at g2
    · rename_i t ht
      have hm := List.mem_of_find?_eq_some ht
      rw [List.mem_reverse] at hm
      obtain ⟨k, hk, hkt⟩ := List.getElem_of_mem hm
      have hk' := hk
      rw [List.length_take] at hk'
      refine ⟨k, t, u, by omega, ?_, List.find?_some ht, g2, g4, g5⟩
      rw [List.getElem_take] at hkt
      rw [← hkt]
      exact List.getElem?_eq_getElem _
    · exact absurd g2.symm g3
  · omega

/-- The file system for the examples: a main file with an include file. -/
def infoWorld : World where
  content f := if f = bs "/w/m.k" then some (bs "$ c\n*A\n*NODE\n 1\n$ c\n 2\n*INCLUDE\na.k\n*B\n")
    else if f = bs "/w/a.k" then some (bs "*PART\n$ x\nt\n") else none
  openError := bs "No such file or directory"
  isFile f := decide (f = bs "/w/m.k" ∨ f = bs "/w/a.k")
  isDir _ := false
  cwd := bs "/w"
  mem _ := 0

/-- The calls for the example. -/
def infoCalls : List Call :=
  [⟨⟨bs "/w/m.k", 3, [bs "/w"], bs "/w/"⟩, ⟨bs "A", none, none⟩⟩,
   ⟨⟨bs "/w/m.k", 4, [bs "/w"], bs "/w/"⟩, ⟨bs "NODE", some (bs " 1"), some 0⟩⟩,
   ⟨⟨bs "/w/m.k", 6, [bs "/w"], bs "/w/"⟩, ⟨bs "NODE", some (bs " 2"), some 1⟩⟩,
   ⟨⟨bs "/w/a.k", 3, [bs "/w"], bs "/w/"⟩, ⟨bs "PART", some (bs "t"), some 0⟩⟩,
   ⟨⟨bs "/w/m.k", 9, [bs "/w"], bs "/w/"⟩, ⟨bs "B", none, none⟩⟩]

/-- Not vacuous, and a violation: the keyword A is in line 2 of the file, its call has line 3. -/
theorem c83_example : parseTopI infoWorld {} 3 (bs "/w/m.k") = .ok { paths := [bs "/w"], calls := infoCalls } ∧
    (∀ c ∈ infoCalls, ∃ content, infoWorld.content c.info.file = some content ∧ Readable infoWorld content) ∧
    (textLines (bs "$ c\n*A\n*NODE\n 1\n$ c\n 2\n*INCLUDE\na.k\n*B\n"))[2 - 1]? = some (bs "*A") := by
  refine ⟨by decide +kernel, ?_, by decide +kernel⟩
  have h1 : Readable infoWorld (bs "$ c\n*A\n*NODE\n 1\n$ c\n 2\n*INCLUDE\na.k\n*B\n") :=
    readable_small (by decide +kernel) (by decide +kernel) (by decide +kernel) (by decide +kernel)
  have h2 : Readable infoWorld (bs "*PART\n$ x\nt\n") :=
    readable_small (by decide +kernel) (by decide +kernel) (by decide +kernel) (by decide +kernel)
  intro c hc
  have : c.info.file = bs "/w/m.k" ∨ c.info.file = bs "/w/a.k" := by
    revert c
    decide +kernel
  rcases this with h | h <;> rw [h]
  · exact ⟨_, rfl, h1⟩
  · exact ⟨_, by decide +kernel, h2⟩

end Dyna.Key
