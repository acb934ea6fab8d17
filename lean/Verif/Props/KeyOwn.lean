import Verif.KeyOwn
import Verif.Props.KeyMem
/-!
# Property C93: the objects of a key file in C++
-/

namespace Dyna.KeyOwn

open Dyna Dyna.KeyMem
open Dyna.Key (World Config parseTop)

/-! ## Specification: the same objects as values -/

/-- Specification: a `Card` has been moved from, shows a card of a parse, or has a card of its own. -/
inductive SCard where
  | moved
  | view (f i j : Nat)
  | own (c : CardMem)
deriving DecidableEq, Repr

/-- Specification: the objects as values. `files` are the keywords of all parses, `gone` those whose `Keywords` has
been destroyed; a `Keywords` has the keywords of a parse or none; `leaks` counts the blocks that nobody frees. -/
structure Spec where
  files : List (List KwMem) := []
  gone : List Nat := []
  kws : List (Option (Option Nat)) := []
  slices : List SliceObj := []
  keys : List KwObj := []
  cards : List (Option SCard) := []
  cfgs : List (Option Config) := []
  warns : List Bool := []
  leaks : Nat := 0

/-- Specification: an object that has not been destroyed. -/
def sobj {α : Type} (l : List (Option α)) (x : Nat) : Option α := l[x]?.join

/-- Specification: the result of a function that succeeds. -/
def val {α : Type} : Res α → Option α
  | .ok a => some a
  | _ => none

/-- Specification: the string of the warnings is given to the program that wants it. -/
def addWarn (warns : List Bool) (keep : Bool) (msgs : List Bytes) : List Bool :=
  if keep = true ∧ msgs ≠ [] then warns ++ [true] else warns

/-- Specification: the keywords of a `Keywords`. -/
def Spec.names (S : Spec) : Option Nat → Option (List KwMem)
  | none => some []
  | some f => S.files[f]?

/-- Specification: a keyword of a parse whose `Keywords` still exists. -/
def Spec.kw (S : Spec) (f i : Nat) : Option KwMem :=
  if f ∈ S.gone then none else do
    let fl ← S.files[f]?
    fl[i]?

/-- Specification: the card of a `Card`. -/
def Spec.value (S : Spec) : SCard → Option CardMem
  | .moved => none
  | .view f i j => do
    let kw ← S.kw f i
    kw.cards[j]?
  | .own c => some c

/-- Specification: the card of a `Card` is changed; a view changes the card of the parse, so that all views of it
change, a `Card` with a card of its own changes that one only. -/
def Spec.put (S : Spec) (x : Nat) (c : CardMem) : SCard → Spec
  | .moved => S
  | .view f i j => { S with files := S.files.modify f fun ks => ks.modify i fun kw => ⟨kw.name, kw.cards.set j c⟩ }
  | .own _ => { S with cards := S.cards.set x (some (.own c)) }

/-- Specification: the blocks that an assignment to this `Card` loses. -/
def SCard.lost : SCard → Nat
  | .own _ => 2
  | _ => 0

/-- Specification: one command; `none`: the program is wrong. -/
def Spec.step (S : Spec) : Cmd → Option (Spec × Out)
  | .newCfg c => some ({ S with cfgs := S.cfgs ++ [some c] }, .unit)
  | .copyCfg x => do
    let c ← sobj S.cfgs x
    some ({ S with cfgs := S.cfgs ++ [some c] }, .unit)
  | .moveCfg x => do
    let c ← sobj S.cfgs x
    some ({ S with cfgs := S.cfgs.set x (some ⟨false, false, []⟩) ++ [some c] }, .unit)
  | .dropCfg x => do
    let c ← sobj S.cfgs x
    some ({ S with cfgs := S.cfgs.set x none, leaks := S.leaks + c.extraPaths.length }, .unit)
  | .parse w depth file x keep => do
    let c ← sobj S.cfgs x
    let r ← val (parseTop w c depth file)
    let ks ← val (buildKeywords r.events)
    if r.errors = [] then
      some ({ S with files := S.files ++ [fresh ks], kws := S.kws ++ [some (some S.files.length)], warns := addWarn S.warns keep r.warnings,
                     leaks := S.leaks + c.extraPaths.length }, .unit)
    else some ({ S with warns := addWarn S.warns keep r.warnings, leaks := S.leaks + c.extraPaths.length }, .exn)
  | .dropWarn x => if S.warns[x]? = some true then some ({ S with warns := S.warns.set x false }, .unit) else none
  | .moveKws x => do
    let k ← sobj S.kws x
    some ({ S with kws := S.kws.set x (some none) ++ [some k] }, .unit)
  | .dropKws x => do
    let k ← sobj S.kws x
    some ({ S with kws := S.kws.set x none, gone := k.toList ++ S.gone }, .unit)
  | .size x => do
    let k ← sobj S.kws x
    let l ← S.names k
    some (S, .num l.length)
  | .slice x name => do
    let k ← sobj S.kws x
    let l ← S.names k
    let r ← val (keywordsSlice (l.map KwMem.name) name)
    match r, k with
    | none, _ => some (S, .exn)
    | some _, none => none
    | some r, some f => some ({ S with slices := S.slices ++ [⟨f, r.1, r.2⟩] }, .unit)
  | .nth x i => do
    let sl ← S.slices[x]?
    if i < sl.size then some ({ S with keys := S.keys ++ [⟨sl.file, sl.start + i⟩] }, .unit) else some (S, .exn)
  | .numCards x => do
    let k ← S.keys[x]?
    let kw ← S.kw k.file k.index
    some (S, .num kw.cards.length)
  | .card x j => do
    let k ← S.keys[x]?
    let kw ← S.kw k.file k.index
    if j < kw.cards.length then some ({ S with cards := S.cards ++ [some (.view k.file k.index j)] }, .unit)
    else some (S, .exn)
  | .copyCard x => do
    let c ← sobj S.cards x
    let v ← S.value c
    some ({ S with cards := S.cards ++ [some (.own v)] }, .unit)
  | .moveCard x => do
    let c ← sobj S.cards x
    some ({ S with cards := S.cards.set x (some .moved) ++ [some c] }, .unit)
  | .assignCard x y => do
    let c ← sobj S.cards x
    let d ← sobj S.cards y
    let v ← S.value d
    if x = y then none
    else some ({ S with cards := S.cards.set x (some (.own v)), leaks := S.leaks + c.lost }, .unit)
  | .moveAssignCard x y => do
    let c ← sobj S.cards x
    let d ← sobj S.cards y
    some ({ S with cards := (S.cards.set x (some d)).set y (some .moved), leaks := S.leaks + c.lost }, .unit)
  | .dropCard x => do
    let _ ← sobj S.cards x
    some ({ S with cards := S.cards.set x none }, .unit)
  | .op x o => do
    let c ← sobj S.cards x
    let v ← S.value c
    let r ← val (cardCall v o)
    some (S.put x r.1 c, r.2)

/-- Specification: a program. -/
def Spec.run (S : Spec) : List Cmd → Option (Spec × List Out)
  | [] => some (S, [])
  | c :: cs => do
    let r ← S.step c
    let q ← Spec.run r.1 cs
    some (q.1, r.2 :: q.2)

/-- Specification: all objects have been destroyed (slices and keywords own nothing). -/
def Spec.Empty (S : Spec) : Prop :=
  (∀ x ∈ S.kws, x = none) ∧ (∀ x ∈ S.cards, x = none) ∧ (∀ x ∈ S.cfgs, x = none) ∧ ∀ x ∈ S.warns, x = false

/-- Specification: no line of the files that a command parses ends with `+` (see C86). -/
def Cmd.NoCont : Cmd → Prop
  | .parse w _ _ _ _ => NoContinued w
  | _ => True

/-- Specification: the blocks of the objects that have not been destroyed. -/
def fileBlks (fs : List FileMem) (f : Nat) : List Nat :=
  match fs[f]? with
  | some fl => kwBlks fl.arr fl.blks
  | none => []

/-- Specification: the blocks of a copy. -/
def copyBlks (cs : List CopyMem) (k : Nat) : List Nat :=
  match cs[k]? with
  | some c => [c.blk, c.str]
  | none => []

/-- Specification: the blocks of a `Keywords`. -/
def kwsBlks (fs : List FileMem) : Option KwsObj → List Nat
  | some ⟨some f, _⟩ => fileBlks fs f
  | _ => []

/-- Specification: the blocks of a `Card`. -/
def cardBlks (cs : List CopyMem) : Option CardObj → List Nat
  | some ⟨some (.copy k), true⟩ => copyBlks cs k
  | _ => []

/-- Specification: the blocks of a `ParseConfig`. -/
def cfgBlks : Option CfgObj → List Nat
  | some c => c.arr.toList ++ c.strs
  | none => []

/-- Specification: the blocks of all objects. -/
def Sys.blks (s : Sys) : List Nat :=
  s.kws.flatMap (kwsBlks s.files) ++ s.cards.flatMap (cardBlks s.copies) ++ s.cfgs.flatMap cfgBlks ++
    s.warns.flatMap Option.toList

/-! ## Auxiliary: lists -/

theorem set_flat {α : Type} (f : α → List Nat) (l : List α) (x : Nat) (a b : α) (h : l[x]? = some a) :
    (f b ++ l.flatMap f).Perm (f a ++ (l.set x b).flatMap f) := by
  obtain ⟨hi, hx⟩ := List.getElem?_eq_some_iff.1 h
  have h1 : l.flatMap f = (l.take x).flatMap f ++ (f a ++ (l.drop (x + 1)).flatMap f) := by
    rw [← List.flatMap_cons, ← List.flatMap_append, ← hx, ← List.drop_eq_getElem_cons hi, List.take_append_drop]
  have h2 : (l.set x b).flatMap f = (l.take x).flatMap f ++ (f b ++ (l.drop (x + 1)).flatMap f) := by
    rw [← List.flatMap_cons, ← List.flatMap_append, List.set_eq_take_append_cons_drop, if_pos hi]
  rw [h1, h2]
  perms

theorem flat_uniq {α : Type} (f : α → List Nat) : ∀ (l : List α), (l.flatMap f).Nodup → ∀ (x y : Nat) (a b : α) (k : Nat),
    l[x]? = some a → l[y]? = some b → k ∈ f a → k ∈ f b → x = y
  | [], _, x, _, _, _, _, h, _, _, _ => by simp at h
  | c :: l, hn, x, y, a, b, k, h1, h2, ha, hb => by
    rw [List.flatMap_cons, List.nodup_append] at hn
    obtain ⟨_, n2, n3⟩ := hn
    cases x with
    | zero =>
      cases y with
      | zero => rfl
      | succ y =>
        rw [List.getElem?_cons_zero, Option.some.injEq] at h1
        rw [List.getElem?_cons_succ] at h2
        subst h1
        exact absurd rfl (n3 k ha k (List.mem_flatMap.2 ⟨b, List.mem_of_getElem? h2, hb⟩))
    | succ x =>
      rw [List.getElem?_cons_succ] at h1
      cases y with
      | zero =>
        rw [List.getElem?_cons_zero, Option.some.injEq] at h2
        subst h2
        exact absurd rfl (n3 k hb k (List.mem_flatMap.2 ⟨a, List.mem_of_getElem? h1, ha⟩))
      | succ y =>
        rw [List.getElem?_cons_succ] at h2
        rw [flat_uniq f l n2 x y a b k h1 h2 ha hb]

theorem sobj_map {α β : Type} {g : α → β} {l : List (Option α)} {x : Nat} {b : β}
    (h : sobj (l.map (Option.map g)) x = some b) : ∃ a, l[x]? = some (some a) ∧ b = g a ∧ obj l x = .ok a := by
  unfold sobj at h
  rw [List.getElem?_map] at h
  unfold obj
  cases hx : l[x]? with
  | none => rw [hx] at h; simp at h
  | some o =>
    rw [hx] at h
    cases o with
    | none => simp at h
    | some a => simp at h; exact ⟨a, rfl, h.symm, rfl⟩

theorem mem_of_get {α : Type} {l : List (Option α)} {x : Nat} {a : α} (h : l[x]? = some (some a)) : some a ∈ l :=
  List.mem_of_getElem? h

theorem mem_set_or {α : Type} {l : List (Option α)} {x : Nat} {o : Option α} {a : α} (h : some a ∈ l.set x o) :
    some a ∈ l ∨ o = some a := by
  rcases List.mem_or_eq_of_mem_set h with h | h
  · exact .inl h
  · exact .inr h.symm

/-! ## Auxiliary: invariant -/

/-- Auxiliary: the parse behind a `Keywords`. -/
def kwsIds : Option KwsObj → List Nat
  | some ⟨some f, _⟩ => [f]
  | _ => []

/-- Auxiliary: the copy behind a `Card`. -/
def cardIds : Option CardObj → List Nat
  | some ⟨some (.copy k), true⟩ => [k]
  | _ => []

/-- Auxiliary: the value of a `Card`. -/
def absCard (cs : List CopyMem) (c : CardObj) : SCard :=
  match c.handle with
  | none => .moved
  | some (.kw f i j) => .view f i j
  | some (.copy k) =>
    match cs[k]? with
    | some c => .own c.card
    | none => .moved

/-- Auxiliary: a `Card` frees exactly a card of its own. -/
def CardOk (cs : List CopyMem) (c : CardObj) : Prop :=
  match c.handle with
  | none => c.del = false
  | some (.kw _ _ _) => c.del = false
  | some (.copy k) => c.del = true ∧ k < cs.length

/-- Auxiliary: the blocks of a parse fit to its keywords. -/
def FileOk (fl : FileMem) : Prop :=
  fl.blks.length = fl.kws.length ∧ (fl.kws ≠ [] → fl.arr.isSome) ∧
    ∀ (i : Nat) kw b, fl.kws[i]? = some kw → fl.blks[i]? = some b →
      b.strs.length = kw.cards.length ∧ (kw.cards ≠ [] → b.cards.isSome)

/-- Auxiliary: a `Keywords` has all keywords of its parse. -/
def KwsOk (fs : List FileMem) (k : KwsObj) : Prop :=
  match k.data with
  | none => k.size = 0
  | some f => ∃ fl, fs[f]? = some fl ∧ k.size = fl.kws.length

/-- Auxiliary: the array of a configuration. -/
def CfgOk (c : CfgObj) : Prop :=
  c.strs.length = c.cfg.extraPaths.length ∧ (c.arr.isSome ↔ c.cfg.extraPaths ≠ [])

/-- Auxiliary: the system has the values of the specification and its memory is owned by its objects. -/
structure Inv (s : Sys) (S : Spec) (leak base : List Nat) : Prop where
  files : S.files = s.files.map FileMem.kws
  fileOk : ∀ fl ∈ s.files, FileOk fl
  kws : S.kws = s.kws.map (Option.map KwsObj.data)
  kwsOk : ∀ k, some k ∈ s.kws → KwsOk s.files k
  kwsNodup : (s.kws.flatMap kwsIds).Nodup
  alive : ∀ f, f < s.files.length → f ∉ S.gone → f ∈ s.kws.flatMap kwsIds
  slices : S.slices = s.slices
  keys : S.keys = s.keys
  cards : S.cards = s.cards.map (Option.map (absCard s.copies))
  cardOk : ∀ c, some c ∈ s.cards → CardOk s.copies c
  cardNodup : (s.cards.flatMap cardIds).Nodup
  cfgs : S.cfgs = s.cfgs.map (Option.map CfgObj.cfg)
  cfgOk : ∀ c, some c ∈ s.cfgs → CfgOk c
  warns : S.warns = s.warns.map Option.isSome
  own : Owns s.m (s.blks ++ leak ++ base)

/-- Auxiliary: what a command keeps. -/
def Good (c : Cmd) (s : Sys) (S S' : Spec) (o : Out) (leak base : List Nat) : Prop :=
  ∃ s' leak', step s c = .ok (s', o) ∧ Inv s' S' leak' base ∧
    (c.NoCont → leak'.length + S.leaks = leak.length + S'.leaks)

/-! ### Configurations -/

theorem newPaths_ok {m : Mem} {L : List Nat} (h : Owns m L) (n : Nat) :
    Owns (newPaths m n).1 ((newPaths m n).2.1.toList ++ (newPaths m n).2.2 ++ L) ∧ (newPaths m n).2.2.length = n ∧
      ((newPaths m n).2.1.isSome ↔ n ≠ 0) := by
  unfold newPaths
  split
  · rename_i hn
    subst hn
    exact ⟨h, rfl, by simp⟩
  · rename_i hn
    have h1 := alloc_ok h
    have h2 := allocAll_ok n h1
    refine ⟨?_, ?_, by simp [hn]⟩
    · exact h2.1.perm (by perms)
    · exact h2.2

theorem copyCfgM_ok {m : Mem} {c : CfgObj} {L : List Nat} (h : Owns m L) (hc : CfgOk c)
    (hs : ∀ b, b ∈ c.arr.toList ++ c.strs → b ∈ L) :
    ∃ m' c', copyCfgM m c = .ok (m', c') ∧ c'.cfg = c.cfg ∧ CfgOk c' ∧ Owns m' (c'.arr.toList ++ c'.strs ++ L) := by
  unfold copyCfgM
  obtain ⟨c1, c2⟩ := hc
  split
  · rename_i h0
    refine ⟨_, _, rfl, rfl, ⟨c1, c2⟩, ?_⟩
    have e1 : c.arr = none := by
      rw [List.length_eq_zero_iff.1 h0] at c2
      cases ha : c.arr with
      | none => rfl
      | some a => rw [ha] at c2; simp at c2
    have e2 : c.strs = [] := by rw [h0] at c1; exact List.length_eq_zero_iff.1 c1
    simp only [e1, e2]
    exact h
  · rename_i h0
    have hne : c.cfg.extraPaths ≠ [] := fun e => h0 (by rw [e]; rfl)
    obtain ⟨a, ha⟩ := Option.isSome_iff_exists.1 (c2.2 hne)
    have u1 : usePtr m c.arr = .ok () := by
      rw [ha]; exact use_ok h (hs a (by simp [ha]))
    have u2 : m.useAll c.strs = .ok () := useAll_ok h (fun b hb => hs b (by simp [hb]))
    simp only [u1, u2, Res.bind_ok]
    obtain ⟨n1, n2, n3⟩ := newPaths_ok h c.cfg.extraPaths.length
    exact ⟨_, _, rfl, rfl, ⟨n2, n3.trans (by simp)⟩, n1⟩

theorem dropCfgM_ok {m : Mem} {c : CfgObj} {L : List Nat} (h : Owns m (c.arr.toList ++ c.strs ++ L)) :
    ∃ m', dropCfgM m c = .ok m' ∧ Owns m' (c.strs ++ L) :=
  freeOpt_ok (h.perm (by perms))

/-- Auxiliary: two lists with the same elements. -/
macro "cnt" : tactic => `(tactic| (
  refine List.perm_iff_count.2 (fun a => ?_)
  simp only [Sys.blks, List.flatMap_append, List.flatMap_cons, List.flatMap_nil, List.cons_append, List.append_assoc,
    List.nil_append, Option.toList_some, Option.toList_none, List.append_nil, List.count_append, count_cons1,
    List.count_nil]
  try omega))

/-- Auxiliary: two lists with the same elements, from two other lists. -/
macro "cnt" " from " h:term : tactic => `(tactic| (
  refine List.perm_iff_count.2 (fun a => ?_)
  have hq := List.perm_iff_count.1 $h a
  simp only [Sys.blks, List.flatMap_append, List.flatMap_cons, List.flatMap_nil, List.cons_append, List.append_assoc,
    List.nil_append, Option.toList_some, Option.toList_none, List.append_nil, List.count_append, count_cons1,
    List.count_nil, cfgBlks, movedCfg] at hq ⊢
  omega))

theorem mem_append_one {α : Type} {l : List (Option α)} {o : Option α} {a : α} (h : some a ∈ l ++ [o]) :
    some a ∈ l ∨ o = some a := by
  simp only [List.mem_append, List.mem_singleton] at h
  rcases h with h | h
  · exact .inl h
  · exact .inr h.symm

theorem newCfg_ok {s : Sys} {S : Spec} {leak base : List Nat} (h : Inv s S leak base) (c : Config) :
    Good (.newCfg c) s S { S with cfgs := S.cfgs ++ [some c] } .unit leak base := by
  obtain ⟨n1, n2, n3⟩ := newPaths_ok h.own c.extraPaths.length
  refine ⟨_, leak, rfl, ⟨h.files, h.fileOk, h.kws, h.kwsOk, h.kwsNodup, h.alive, h.slices, h.keys, h.cards, h.cardOk,
    h.cardNodup, ?_, ?_, h.warns, ?_⟩, fun _ => rfl⟩
  · simp only [List.map_append, h.cfgs]; rfl
  · intro d hd
    rcases mem_append_one hd with hd | hd
    · exact h.cfgOk d hd
    · cases hd
      exact ⟨n2, n3.trans (by simp)⟩
  · exact n1.perm (by simp only [Sys.blks, List.flatMap_append, List.flatMap_cons, List.flatMap_nil, cfgBlks]; perms)

theorem mem_flat {α : Type} {f : α → List Nat} {l : List α} {x : Nat} {a : α} (h : l[x]? = some a) {b : Nat}
    (hb : b ∈ f a) : b ∈ l.flatMap f := List.mem_flatMap.2 ⟨a, List.mem_of_getElem? h, hb⟩

theorem copyCfg_ok {s : Sys} {S : Spec} {leak base : List Nat} (h : Inv s S leak base) {x : Nat} {c : Config}
    (hx : sobj S.cfgs x = some c) :
    Good (.copyCfg x) s S { S with cfgs := S.cfgs ++ [some c] } .unit leak base := by
  rw [h.cfgs] at hx
  obtain ⟨d, d1, rfl, d3⟩ := sobj_map hx
  obtain ⟨m', c', e1, e2, e3, e4⟩ := copyCfgM_ok h.own (h.cfgOk d (mem_of_get d1)) (fun b hb => by
    have := mem_flat (f := cfgBlks) d1 hb
    simp only [Sys.blks, List.mem_append]
    exact .inl (.inl (.inl (.inr this))))
  refine ⟨{ s with m := m', cfgs := s.cfgs ++ [some c'] }, leak, by simp only [step, d3, Res.bind_ok, e1], ⟨h.files, h.fileOk, h.kws, h.kwsOk, h.kwsNodup, h.alive,
    h.slices, h.keys, h.cards, h.cardOk, h.cardNodup, ?_, ?_, h.warns, ?_⟩, fun _ => rfl⟩
  · simp only [List.map_append, h.cfgs, ← e2]; rfl
  · intro q hq
    rcases mem_append_one hq with hq | hq
    · exact h.cfgOk q hq
    · cases hq
      exact e3
  · exact e4.perm (by simp only [Sys.blks, List.flatMap_append, List.flatMap_cons, List.flatMap_nil, cfgBlks]; perms)

theorem moveCfg_ok {s : Sys} {S : Spec} {leak base : List Nat} (h : Inv s S leak base) {x : Nat} {c : Config}
    (hx : sobj S.cfgs x = some c) :
    Good (.moveCfg x) s S { S with cfgs := S.cfgs.set x (some ⟨false, false, []⟩) ++ [some c] } .unit leak base := by
  rw [h.cfgs] at hx
  obtain ⟨d, d1, rfl, d3⟩ := sobj_map hx
  refine ⟨{ s with cfgs := s.cfgs.set x (some movedCfg) ++ [some d] }, leak, by simp only [step, d3, Res.bind_ok], ⟨h.files, h.fileOk, h.kws, h.kwsOk, h.kwsNodup, h.alive,
    h.slices, h.keys, h.cards, h.cardOk, h.cardNodup, ?_, ?_, h.warns, ?_⟩, fun _ => rfl⟩
  · simp only [List.map_append, List.map_set, h.cfgs]; rfl
  · intro q hq
    rcases mem_append_one hq with hq | hq
    · rcases mem_set_or hq with hq | hq
      · exact h.cfgOk q hq
      · cases hq
        exact ⟨rfl, by simp [movedCfg]⟩
    · cases hq
      exact h.cfgOk d (mem_of_get d1)
  · refine h.own.perm ?_
    cnt from set_flat cfgBlks s.cfgs x (some d) (some movedCfg) d1

theorem dropCfg_ok {s : Sys} {S : Spec} {leak base : List Nat} (h : Inv s S leak base) {x : Nat} {c : Config}
    (hx : sobj S.cfgs x = some c) :
    Good (.dropCfg x) s S { S with cfgs := S.cfgs.set x none, leaks := S.leaks + c.extraPaths.length } .unit leak
      base := by
  rw [h.cfgs] at hx
  obtain ⟨d, d1, rfl, d3⟩ := sobj_map hx
  obtain ⟨m', e1, e2⟩ := dropCfgM_ok (m := s.m) (c := d) (L := Sys.blks { s with cfgs := s.cfgs.set x none } ++ leak ++ base)
    (h.own.perm (by cnt from set_flat cfgBlks s.cfgs x (some d) none d1))
  refine ⟨{ s with m := m', cfgs := s.cfgs.set x none }, d.strs ++ leak, by simp only [step, d3, Res.bind_ok, e1], ⟨h.files, h.fileOk, h.kws, h.kwsOk, h.kwsNodup,
    h.alive, h.slices, h.keys, h.cards, h.cardOk, h.cardNodup, ?_, ?_, h.warns, ?_⟩, fun _ => ?_⟩
  · simp only [List.map_set, h.cfgs]; rfl
  · intro q hq
    rcases mem_set_or hq with hq | hq
    · exact h.cfgOk q hq
    · cases hq
  · exact e2.perm (by cnt)
  · have := (h.cfgOk d (mem_of_get d1)).1
    simp only [List.length_append]
    omega

/-! ### `Keywords` -/

theorem dropWarn_ok {s : Sys} {S : Spec} {leak base : List Nat} (h : Inv s S leak base) {x : Nat}
    (hx : S.warns[x]? = some true) :
    Good (.dropWarn x) s S { S with warns := S.warns.set x false } .unit leak base := by
  rw [h.warns, List.getElem?_map] at hx
  obtain ⟨o, ho, ho2⟩ := Option.map_eq_some_iff.1 hx
  obtain ⟨b, rfl⟩ := Option.isSome_iff_exists.1 ho2
  obtain ⟨m', e1, e2⟩ := free_ok (m := s.m) (b := b) (L := Sys.blks { s with warns := s.warns.set x none } ++ leak ++ base)
    (h.own.perm (by cnt from set_flat Option.toList s.warns x (some b) none ho))
  have d3 : obj s.warns x = .ok b := by simp only [obj, ho]
  refine ⟨{ s with m := m', warns := s.warns.set x none }, leak, by simp only [step, d3, Res.bind_ok, e1], ⟨h.files, h.fileOk, h.kws, h.kwsOk, h.kwsNodup,
    h.alive, h.slices, h.keys, h.cards, h.cardOk, h.cardNodup, h.cfgs, h.cfgOk, ?_, ?_⟩, fun _ => rfl⟩
  · simp only [List.map_set, h.warns]; rfl
  · exact e2.perm (by cnt)

theorem moveKws_ok {s : Sys} {S : Spec} {leak base : List Nat} (h : Inv s S leak base) {x : Nat} {k : Option Nat}
    (hx : sobj S.kws x = some k) :
    Good (.moveKws x) s S { S with kws := S.kws.set x (some none) ++ [some k] } .unit leak base := by
  rw [h.kws] at hx
  obtain ⟨d, d1, rfl, d3⟩ := sobj_map hx
  have hp : (s.kws.flatMap kwsIds).Perm ((s.kws.set x (some ⟨none, 0⟩) ++ [some d]).flatMap kwsIds) := by
    have := set_flat kwsIds s.kws x (some d) (some ⟨none, 0⟩) d1
    simp only [kwsIds, List.nil_append] at this
    refine this.trans ?_
    rw [List.flatMap_append]
    simp only [List.flatMap_cons, List.flatMap_nil, List.append_nil]
    exact List.perm_append_comm
  refine ⟨{ s with kws := s.kws.set x (some ⟨none, 0⟩) ++ [some d] }, leak, by simp only [step, d3, Res.bind_ok], ⟨h.files, h.fileOk, ?_, ?_, hp.nodup h.kwsNodup, ?_,
    h.slices, h.keys, h.cards, h.cardOk, h.cardNodup, h.cfgs, h.cfgOk, h.warns, ?_⟩, fun _ => rfl⟩
  · simp only [List.map_append, List.map_set, h.kws]; rfl
  · intro q hq
    rcases mem_append_one hq with hq | hq
    · rcases mem_set_or hq with hq | hq
      · exact h.kwsOk q hq
      · cases hq
        rfl
    · cases hq
      exact h.kwsOk d (mem_of_get d1)
  · intro f hf hg
    exact hp.subset (h.alive f hf hg)
  · refine h.own.perm ?_
    have := set_flat (kwsBlks s.files) s.kws x (some d) (some ⟨none, 0⟩) d1
    rw [show kwsBlks s.files (some ⟨none, 0⟩) = [] from rfl] at this
    cnt from this

theorem dropKws_ok {s : Sys} {S : Spec} {leak base : List Nat} (h : Inv s S leak base) {x : Nat} {k : Option Nat}
    (hx : sobj S.kws x = some k) :
    Good (.dropKws x) s S { S with kws := S.kws.set x none, gone := k.toList ++ S.gone } .unit leak base := by
  rw [h.kws] at hx
  obtain ⟨d, d1, rfl, d3⟩ := sobj_map hx
  have hs := set_flat (kwsBlks s.files) s.kws x (some d) none d1
  rw [show kwsBlks s.files none = [] from rfl] at hs
  have hd := h.kwsOk d (mem_of_get d1)
  have main : ∃ m', dropKwsM s d = .ok m' ∧ Owns m' (Sys.blks { s with kws := s.kws.set x none } ++ leak ++ base) := by
    obtain ⟨data, size⟩ := d
    unfold dropKwsM
    cases data with
    | none =>
      have hd' : size = 0 := hd
      refine ⟨s.m, by simp [hd', Mem.freeOpt], h.own.perm ?_⟩
      rw [show kwsBlks s.files (some ⟨none, size⟩) = [] from rfl] at hs
      cnt from hs
    | some f =>
      obtain ⟨fl, f1, f2⟩ := hd
      have hok := h.fileOk fl (List.mem_of_getElem? f1)
      have f2' : size = fl.kws.length := f2
      simp only [f1, Res.ofOption_some, Res.bind_ok]
      rw [if_pos (by rw [f2', hok.1]; exact Nat.le_refl _), List.take_of_length_le (by rw [f2', hok.1]; exact Nat.le_refl _)]
      refine c86_free _ _ _ _ (h.own.perm ?_)
      rw [show kwsBlks s.files (some ⟨some f, size⟩) = kwBlks fl.arr fl.blks by simp only [kwsBlks, fileBlks, f1]] at hs
      cnt from hs
  have hp := set_flat kwsIds s.kws x (some d) none d1
  rw [show kwsIds none = [] from rfl, List.nil_append] at hp
  obtain ⟨m', e1, e2⟩ := main
  refine ⟨{ s with m := m', kws := s.kws.set x none }, leak, by simp only [step, d3, Res.bind_ok, e1], ⟨h.files, h.fileOk, ?_, ?_, ?_, ?_,
    h.slices, h.keys, h.cards, h.cardOk, h.cardNodup, h.cfgs, h.cfgOk, h.warns, e2⟩, fun _ => rfl⟩
  · simp only [List.map_set, h.kws]; rfl
  · intro q hq
    rcases mem_set_or hq with hq | hq
    · exact h.kwsOk q hq
    · cases hq
  · have := hp.nodup h.kwsNodup
    rw [List.nodup_append] at this
    exact this.2.1
  · intro f hf hg
    simp only [List.mem_append, not_or] at hg
    have := hp.subset (h.alive f hf hg.2)
    rcases List.mem_append.1 this with this | this
    · exfalso
      obtain ⟨data, size⟩ := d
      cases data with
      | none => simp [kwsIds] at this
      | some g =>
        simp only [kwsIds, List.mem_singleton] at this
        exact hg.1 (by simp [this])
    · exact this

theorem names_ok {s : Sys} {S : Spec} {leak base : List Nat} (h : Inv s S leak base) {x : Nat} {k : KwsObj}
    (hx : s.kws[x]? = some (some k)) {l : List KwMem} (hl : S.names k.data = some l) :
    k.size = l.length ∧ namesM s k = .ok (l.map KwMem.name) := by
  have hd := h.kwsOk k (mem_of_get hx)
  have hb := fun b (hb : b ∈ kwsBlks s.files (some k)) => mem_flat (f := kwsBlks s.files) hx hb
  obtain ⟨data, size⟩ := k
  unfold namesM
  cases data with
  | none =>
    simp only [Spec.names, Option.some.injEq] at hl
    subst hl
    have hd' : size = 0 := hd
    exact ⟨hd', by simp [hd']⟩
  | some f =>
    obtain ⟨fl, f1, f2⟩ := hd
    have f2' : size = fl.kws.length := f2
    simp only [Spec.names, h.files, List.getElem?_map, f1, Option.map_some, Option.some.injEq] at hl
    subst hl
    refine ⟨f2', ?_⟩
    have hok := h.fileOk fl (List.mem_of_getElem? f1)
    rw [show kwsBlks s.files (some ⟨some f, size⟩) = kwBlks fl.arr fl.blks by simp only [kwsBlks, fileBlks, f1]] at hb
    have hin : ∀ b, b ∈ kwBlks fl.arr fl.blks → b ∈ s.blks ++ leak ++ base := by
      intro b q
      simp only [Sys.blks, List.mem_append]
      exact .inl (.inl (.inl (.inl (.inl (hb b q)))))
    simp only
    split
    · rename_i h0
      rw [f2'] at h0
      rw [List.length_eq_zero_iff.1 h0]
      rfl
    · rename_i h0
      have hne : fl.kws ≠ [] := fun e => h0 (by rw [f2', e]; rfl)
      obtain ⟨a, ha⟩ := Option.isSome_iff_exists.1 (hok.2.1 hne)
      have u1 : usePtr s.m fl.arr = .ok () := by
        rw [ha]; exact use_ok h.own (hin a (by simp [kwBlks, ha]))
      have u2 : s.m.useAll (fl.blks.map KwBlk.name) = .ok () := useAll_ok h.own (fun b q => hin b (by
        obtain ⟨kb, k1, k2⟩ := List.mem_map.1 q
        simp only [kwBlks, List.mem_append, List.mem_flatMap]
        exact .inr ⟨kb, k1, by simp [KwBlk.blks, k2]⟩))
      simp only [f1, Res.ofOption_some, Res.bind_ok, u1, u2]
      rw [List.take_of_length_le (by simp [f2'])]

theorem val_some {α : Type} {r : Res α} {a : α} (h : val r = some a) : r = .ok a := by
  unfold val at h
  split at h
  · simp only [Option.some.injEq] at h
    rw [h]
  · cases h

theorem size_ok {s : Sys} {S : Spec} {leak base : List Nat} (h : Inv s S leak base) {x : Nat} {k : Option Nat}
    (hx : sobj S.kws x = some k) {l : List KwMem} (hl : S.names k = some l) :
    Good (.size x) s S S (.num l.length) leak base := by
  rw [h.kws] at hx
  obtain ⟨d, d1, rfl, d3⟩ := sobj_map hx
  obtain ⟨e1, -⟩ := names_ok h d1 hl
  exact ⟨s, leak, by simp only [step, d3, Res.bind_ok, e1], h, fun _ => rfl⟩

theorem slice_exn {s : Sys} {S : Spec} {leak base : List Nat} (h : Inv s S leak base) {x : Nat} {k : Option Nat}
    (hx : sobj S.kws x = some k) {l : List KwMem} (hl : S.names k = some l) {name : Bytes}
    (hr : keywordsSlice (l.map KwMem.name) name = .ok none) : Good (.slice x name) s S S .exn leak base := by
  rw [h.kws] at hx
  obtain ⟨d, d1, rfl, d3⟩ := sobj_map hx
  obtain ⟨-, e1⟩ := names_ok h d1 hl
  exact ⟨s, leak, by simp only [step, sliceM, d3, Res.bind_ok, e1, hr], h, fun _ => rfl⟩

theorem slice_ok {s : Sys} {S : Spec} {leak base : List Nat} (h : Inv s S leak base) {x f : Nat}
    (hx : sobj S.kws x = some (some f)) {l : List KwMem} (hl : S.names (some f) = some l) {name : Bytes} {r : Nat × Nat}
    (hr : keywordsSlice (l.map KwMem.name) name = .ok (some r)) :
    Good (.slice x name) s S { S with slices := S.slices ++ [⟨f, r.1, r.2⟩] } .unit leak base := by
  rw [h.kws] at hx
  obtain ⟨d, d1, d2, d3⟩ := sobj_map hx
  rw [d2] at hl
  obtain ⟨-, e1⟩ := names_ok h d1 hl
  refine ⟨{ s with slices := s.slices ++ [⟨f, r.1, r.2⟩] }, leak,
    by simp only [step, sliceM, d3, Res.bind_ok, e1, hr, ← d2], ⟨h.files, h.fileOk, h.kws, h.kwsOk, h.kwsNodup,
      h.alive, ?_, h.keys, h.cards, h.cardOk, h.cardNodup, h.cfgs, h.cfgOk, h.warns, h.own⟩, fun _ => rfl⟩
  simp only [h.slices]

theorem nth_exn {s : Sys} {S : Spec} {leak base : List Nat} (h : Inv s S leak base) {x i : Nat} {sl : SliceObj}
    (hx : S.slices[x]? = some sl) (hi : ¬ i < sl.size) : Good (.nth x i) s S S .exn leak base := by
  rw [h.slices] at hx
  refine ⟨s, leak, ?_, h, fun _ => rfl⟩
  have : sliceIndex sl.start sl.size i = none := by unfold sliceIndex; rw [if_pos (by omega)]
  simp only [step, hx, Res.ofOption_some, Res.bind_ok, nthM, this]

theorem nth_ok {s : Sys} {S : Spec} {leak base : List Nat} (h : Inv s S leak base) {x i : Nat} {sl : SliceObj}
    (hx : S.slices[x]? = some sl) (hi : i < sl.size) :
    Good (.nth x i) s S { S with keys := S.keys ++ [⟨sl.file, sl.start + i⟩] } .unit leak base := by
  rw [h.slices] at hx
  have : sliceIndex sl.start sl.size i = some (sl.start + i) := by unfold sliceIndex; rw [if_neg (by omega)]
  refine ⟨{ s with keys := s.keys ++ [⟨sl.file, sl.start + i⟩] }, leak,
    by simp only [step, hx, Res.ofOption_some, Res.bind_ok, nthM, this], ⟨h.files, h.fileOk, h.kws, h.kwsOk, h.kwsNodup,
      h.alive, h.slices, ?_, h.cards, h.cardOk, h.cardNodup, h.cfgs, h.cfgOk, h.warns, h.own⟩, fun _ => rfl⟩
  simp only [h.keys]

theorem kw_ok {s : Sys} {S : Spec} {leak base : List Nat} (h : Inv s S leak base) {f i : Nat} {kw : KwMem}
    (hk : S.kw f i = some kw) : ∃ fl, s.files[f]? = some fl ∧ fl.kws[i]? = some kw ∧ FileOk fl ∧
      ∀ b, b ∈ kwBlks fl.arr fl.blks → b ∈ s.blks ++ leak ++ base := by
  unfold Spec.kw at hk
  split at hk
  · cases hk
  · rename_i hg
    rw [h.files, List.getElem?_map] at hk
    cases hf : s.files[f]? with
    | none => rw [hf] at hk; simp at hk
    | some fl =>
      rw [hf] at hk
      simp at hk
      refine ⟨fl, rfl, hk, h.fileOk fl (List.mem_of_getElem? hf), fun b hb => ?_⟩
      have hlt : f < s.files.length := (List.getElem?_eq_some_iff.1 hf).1
      obtain ⟨o, o1, o2⟩ := List.mem_flatMap.1 (h.alive f hlt hg)
      have : b ∈ kwsBlks s.files o := by
        unfold kwsIds at o2
        split at o2
        · rename_i g n
          simp only [List.mem_singleton] at o2
          subst o2
          simp only [kwsBlks, fileBlks, hf]
          exact hb
        · cases o2
      simp only [Sys.blks, List.mem_append]
      exact .inl (.inl (.inl (.inl (.inl (List.mem_flatMap.2 ⟨o, o1, this⟩)))))

theorem numCardsM_ok {s : Sys} {S : Spec} {leak base : List Nat} (h : Inv s S leak base) {k : KwObj} {kw : KwMem}
    (hk : S.kw k.file k.index = some kw) : numCardsM s k = .ok kw.cards.length := by
  obtain ⟨fl, f1, f2, f3, f4⟩ := kw_ok h hk
  obtain ⟨a, ha⟩ := Option.isSome_iff_exists.1 (f3.2.1 (fun e => by rw [e] at f2; simp at f2))
  have u1 : usePtr s.m fl.arr = .ok () := by
    rw [ha]; exact use_ok h.own (f4 a (by simp [kwBlks, ha]))
  simp only [numCardsM, f1, Res.ofOption_some, Res.bind_ok, u1, f2]

theorem numCards_ok {s : Sys} {S : Spec} {leak base : List Nat} (h : Inv s S leak base) {x : Nat} {k : KwObj}
    (hx : S.keys[x]? = some k) {kw : KwMem} (hk : S.kw k.file k.index = some kw) :
    Good (.numCards x) s S S (.num kw.cards.length) leak base := by
  rw [h.keys] at hx
  exact ⟨s, leak, by simp only [step, hx, Res.ofOption_some, Res.bind_ok, numCardsM_ok h hk], h, fun _ => rfl⟩

theorem card_exn {s : Sys} {S : Spec} {leak base : List Nat} (h : Inv s S leak base) {x j : Nat} {k : KwObj}
    (hx : S.keys[x]? = some k) {kw : KwMem} (hk : S.kw k.file k.index = some kw) (hj : ¬ j < kw.cards.length) :
    Good (.card x j) s S S .exn leak base := by
  rw [h.keys] at hx
  have : cardIndex kw.cards.length j = none := by unfold cardIndex; rw [if_pos (by omega)]
  exact ⟨s, leak, by simp only [step, cardM, hx, Res.ofOption_some, Res.bind_ok, numCardsM_ok h hk, this], h, fun _ => rfl⟩

theorem cards_append {s : Sys} {S : Spec} {leak base : List Nat} (h : Inv s S leak base) {c : CardObj} {d : SCard}
    (hc : CardOk s.copies c) (hd : absCard s.copies c = d) (hi : cardIds (some c) = []) :
    Inv { s with cards := s.cards ++ [some c] } { S with cards := S.cards ++ [some d] } leak base := by
  have hb : cardBlks s.copies (some c) = [] := by
    unfold cardBlks
    split
    · rename_i k hk
      simp only [Option.some.injEq] at hk
      subst hk
      simp [cardIds] at hi
    · rfl
  refine ⟨h.files, h.fileOk, h.kws, h.kwsOk, h.kwsNodup, h.alive, h.slices, h.keys, ?_, ?_, ?_, h.cfgs, h.cfgOk,
    h.warns, ?_⟩
  · simp only [List.map_append, h.cards, ← hd]; rfl
  · intro q hq
    rcases mem_append_one hq with hq | hq
    · exact h.cardOk q hq
    · cases hq
      exact hc
  · simp only [List.flatMap_append, List.flatMap_cons, List.flatMap_nil, hi, List.append_nil]
    exact h.cardNodup
  · have := h.own
    simpa only [Sys.blks, List.flatMap_append, List.flatMap_cons, List.flatMap_nil, hb, List.append_nil] using this

theorem card_ok {s : Sys} {S : Spec} {leak base : List Nat} (h : Inv s S leak base) {x j : Nat} {k : KwObj}
    (hx : S.keys[x]? = some k) {kw : KwMem} (hk : S.kw k.file k.index = some kw) (hj : j < kw.cards.length) :
    Good (.card x j) s S { S with cards := S.cards ++ [some (.view k.file k.index j)] } .unit leak base := by
  rw [h.keys] at hx
  have : cardIndex kw.cards.length j = some j := by unfold cardIndex; rw [if_neg (by omega)]
  refine ⟨{ s with cards := s.cards ++ [some ⟨some (.kw k.file k.index j), false⟩] }, leak,
    by simp only [step, cardM, hx, Res.ofOption_some, Res.bind_ok, numCardsM_ok h hk, this], ?_, fun _ => rfl⟩
  exact cards_append h rfl rfl rfl

/-! ### `Card` -/

theorem load_ok {s : Sys} {S : Spec} {leak base : List Nat} (h : Inv s S leak base) {x : Nat} {c : CardObj}
    (hx : s.cards[x]? = some (some c)) {v : CardMem} (hv : S.value (absCard s.copies c) = some v) :
    load s c.handle = .ok v := by
  have hc := h.cardOk c (mem_of_get hx)
  have hm := fun b (hb : b ∈ cardBlks s.copies (some c)) => mem_flat (f := cardBlks s.copies) hx hb
  obtain ⟨hd, del⟩ := c
  cases hd with
  | none => simp [absCard, Spec.value] at hv
  | some p =>
    cases p with
    | kw f i j =>
      simp only [absCard, Spec.value] at hv
      cases hk : S.kw f i with
      | none => rw [hk] at hv; simp at hv
      | some kw =>
        rw [hk] at hv
        simp at hv
        obtain ⟨fl, f1, f2, f3, f4⟩ := kw_ok h hk
        have hlt : i < fl.blks.length := by rw [f3.1]; exact (List.getElem?_eq_some_iff.1 f2).1
        obtain ⟨g1, g2⟩ := f3.2.2 i kw fl.blks[i] f2 (List.getElem?_eq_getElem hlt)
        obtain ⟨a, ha⟩ := Option.isSome_iff_exists.1 (g2 (fun e => by rw [e] at hv; simp at hv))
        have hj : j < fl.blks[i].strs.length := by rw [g1]; exact (List.getElem?_eq_some_iff.1 hv).1
        have hin : ∀ b, b ∈ fl.blks[i].blks → b ∈ s.blks ++ leak ++ base := fun b hb => f4 b (by
          simp only [kwBlks, List.mem_append, List.mem_flatMap]
          exact .inr ⟨_, List.getElem_mem hlt, hb⟩)
        have u1 : usePtr s.m fl.blks[i].cards = .ok () := by
          rw [ha]; exact use_ok h.own (hin a (by simp [KwBlk.blks, ha]))
        have u2 : s.m.use fl.blks[i].strs[j] = .ok () :=
          use_ok h.own (hin _ (by simp [KwBlk.blks]))
        simp only [load, f1, Res.ofOption_some, Res.bind_ok, List.getElem?_eq_getElem hlt, u1,
          List.getElem?_eq_getElem hj, u2, f2, hv]
    | copy k =>
      obtain ⟨c1, c2⟩ := hc
      simp only at c1
      subst c1
      simp only [absCard, List.getElem?_eq_getElem c2, Spec.value, Option.some.injEq] at hv
      simp only [cardBlks, copyBlks, List.getElem?_eq_getElem c2] at hm
      have hin : ∀ b, b ∈ [s.copies[k].blk, s.copies[k].str] → b ∈ s.blks ++ leak ++ base := by
        intro b q
        simp only [Sys.blks, List.mem_append]
        exact .inl (.inl (.inl (.inl (.inr (hm b q)))))
      have u1 : s.m.use s.copies[k].blk = .ok () := use_ok h.own (hin _ (by simp))
      have u2 : s.m.use s.copies[k].str = .ok () := use_ok h.own (hin _ (by simp))
      simp only [load, List.getElem?_eq_getElem c2, Res.ofOption_some, Res.bind_ok, u1, u2, hv]

theorem absCard_append {cs : List CopyMem} {c : CardObj} (hc : CardOk cs c) (d : CopyMem) :
    absCard (cs ++ [d]) c = absCard cs c := by
  obtain ⟨hd, del⟩ := c
  unfold absCard
  cases hd with
  | none => rfl
  | some p =>
    cases p with
    | kw f i j => rfl
    | copy k => simp only [List.getElem?_append_left hc.2]

theorem cardBlks_append {cs : List CopyMem} {c : CardObj} (hc : CardOk cs c) (d : CopyMem) :
    cardBlks (cs ++ [d]) (some c) = cardBlks cs (some c) := by
  obtain ⟨hd, del⟩ := c
  cases hd with
  | none => rfl
  | some p =>
    cases p with
    | kw f i j => rfl
    | copy k =>
      obtain ⟨c1, c2⟩ := hc
      simp only at c1
      subst c1
      simp only [cardBlks, copyBlks, List.getElem?_append_left c2]

theorem CardOk.append {cs : List CopyMem} {c : CardObj} (hc : CardOk cs c) (d : CopyMem) : CardOk (cs ++ [d]) c := by
  obtain ⟨hd, del⟩ := c
  unfold CardOk at *
  cases hd with
  | none => exact hc
  | some p =>
    cases p with
    | kw f i j => exact hc
    | copy k => exact ⟨hc.1, by simp; have := hc.2; omega⟩

theorem flat_congr {α : Type} {f g : Option α → List Nat} {l : List (Option α)} (h0 : f none = g none)
    (h : ∀ a, some a ∈ l → f (some a) = g (some a)) : l.flatMap f = l.flatMap g := by
  induction l with
  | nil => rfl
  | cons o l ih =>
    rw [List.flatMap_cons, List.flatMap_cons, ih (fun a ha => h a (List.mem_cons_of_mem _ ha))]
    cases o with
    | none => rw [h0]
    | some a => rw [h a List.mem_cons_self]

theorem ids_lt {s : Sys} {S : Spec} {leak base : List Nat} (h : Inv s S leak base) {k : Nat}
    (hk : k ∈ s.cards.flatMap cardIds) : k < s.copies.length := by
  obtain ⟨o, o1, o2⟩ := List.mem_flatMap.1 hk
  unfold cardIds at o2
  split at o2
  · rename_i g
    simp only [List.mem_singleton] at o2
    subst o2
    exact (h.cardOk _ o1).2
  · cases o2

/-- A copy is made; the list of cards is still the old one. -/
theorem newCopy_ok {s : Sys} {S : Spec} {leak base : List Nat} (h : Inv s S leak base) (v : CardMem) :
    Inv (newCopy s v).1 S (copyBlks (newCopy s v).1.copies s.copies.length ++ leak) base := by
  have h1 := alloc_ok (alloc_ok h.own)
  refine ⟨h.files, h.fileOk, h.kws, h.kwsOk, h.kwsNodup, h.alive, h.slices, h.keys, ?_, ?_, h.cardNodup, h.cfgs,
    h.cfgOk, h.warns, ?_⟩
  · rw [h.cards]
    refine List.map_congr_left (fun o ho => ?_)
    cases o with
    | none => rfl
    | some c => simp only [Option.map_some, newCopy, absCard_append (h.cardOk c ho)]
  · intro c hc
    exact (h.cardOk c hc).append _
  · refine h1.perm ?_
    have e : s.cards.flatMap (cardBlks (newCopy s v).1.copies) = s.cards.flatMap (cardBlks s.copies) :=
      flat_congr rfl (fun c hc => cardBlks_append (h.cardOk c hc) _)
    simp only [Sys.blks]
    rw [show (newCopy s v).1.cards = s.cards from rfl, e]
    simp only [newCopy, copyBlks, List.getElem?_concat_length]
    perms

theorem lost_eq {s : Sys} {S : Spec} {leak base : List Nat} (h : Inv s S leak base) {c : CardObj} (hc : some c ∈ s.cards) :
    (absCard s.copies c).lost = (cardBlks s.copies (some c)).length := by
  have hc := h.cardOk c hc
  obtain ⟨hd, del⟩ := c
  cases hd with
  | none => rfl
  | some p =>
    cases p with
    | kw f i j => rfl
    | copy k =>
      obtain ⟨c1, c2⟩ := hc
      simp only at c1
      subst c1
      simp only [absCard, cardBlks, copyBlks, List.getElem?_eq_getElem c2, SCard.lost]
      rfl

theorem copyCard_ok {s : Sys} {S : Spec} {leak base : List Nat} (h : Inv s S leak base) {x : Nat} {c : SCard}
    (hx : sobj S.cards x = some c) {v : CardMem} (hv : S.value c = some v) :
    Good (.copyCard x) s S { S with cards := S.cards ++ [some (.own v)] } .unit leak base := by
  rw [h.cards] at hx
  obtain ⟨d, d1, rfl, d3⟩ := sobj_map hx
  have hl := load_ok h d1 hv
  have hn := newCopy_ok h v
  refine ⟨{ (newCopy s v).1 with cards := s.cards ++ [some (newCopy s v).2] }, leak,
    by simp only [step, d3, Res.bind_ok, hl], ⟨h.files, h.fileOk, h.kws, h.kwsOk, h.kwsNodup, h.alive, h.slices,
      h.keys, ?_, ?_, ?_, h.cfgs, h.cfgOk, h.warns, ?_⟩, fun _ => rfl⟩
  · have := hn.cards
    simp only [List.map_append]
    rw [this]
    simp [newCopy, absCard]
  · intro q hq
    rcases mem_append_one hq with hq | hq
    · exact hn.cardOk q hq
    · cases hq
      exact ⟨rfl, by simp [newCopy]⟩
  · simp only [List.flatMap_append, List.flatMap_cons, List.flatMap_nil, List.append_nil, newCopy, cardIds]
    rw [List.nodup_append]
    refine ⟨h.cardNodup, by simp, fun a ha b hb => ?_⟩
    simp only [List.mem_singleton] at hb
    have := ids_lt h ha
    omega
  · refine hn.own.perm ?_
    simp only [Sys.blks, List.flatMap_append, List.flatMap_cons, List.flatMap_nil]
    rw [show cardBlks (newCopy s v).1.copies (some (newCopy s v).2) =
      copyBlks (newCopy s v).1.copies s.copies.length from rfl, show (newCopy s v).1.cards = s.cards from rfl]
    perms

theorem moveCard_ok {s : Sys} {S : Spec} {leak base : List Nat} (h : Inv s S leak base) {x : Nat} {c : SCard}
    (hx : sobj S.cards x = some c) :
    Good (.moveCard x) s S { S with cards := S.cards.set x (some .moved) ++ [some c] } .unit leak base := by
  rw [h.cards] at hx
  obtain ⟨d, d1, rfl, d3⟩ := sobj_map hx
  have hp : (s.cards.flatMap cardIds).Perm ((s.cards.set x (some ⟨none, false⟩) ++ [some d]).flatMap cardIds) := by
    have := set_flat cardIds s.cards x (some d) (some ⟨none, false⟩) d1
    simp only [show cardIds (some ⟨none, false⟩) = [] from rfl, List.nil_append] at this
    refine this.trans ?_
    rw [List.flatMap_append]
    simp only [List.flatMap_cons, List.flatMap_nil, List.append_nil]
    exact List.perm_append_comm
  refine ⟨{ s with cards := s.cards.set x (some ⟨none, false⟩) ++ [some d] }, leak, by simp only [step, d3, Res.bind_ok],
    ⟨h.files, h.fileOk, h.kws, h.kwsOk, h.kwsNodup, h.alive, h.slices, h.keys, ?_, ?_, hp.nodup h.cardNodup, h.cfgs,
      h.cfgOk, h.warns, ?_⟩, fun _ => rfl⟩
  · simp only [List.map_append, List.map_set, h.cards]; rfl
  · intro q hq
    rcases mem_append_one hq with hq | hq
    · rcases mem_set_or hq with hq | hq
      · exact h.cardOk q hq
      · cases hq
        rfl
    · cases hq
      exact h.cardOk d (mem_of_get d1)
  · refine h.own.perm ?_
    have := set_flat (cardBlks s.copies) s.cards x (some d) (some ⟨none, false⟩) d1
    rw [show cardBlks s.copies (some ⟨none, false⟩) = [] from rfl] at this
    cnt from this

theorem nodup_set {s : List (Option CardObj)} {x : Nat} {c : CardObj} {o : Option CardObj}
    (hn : (s.flatMap cardIds).Nodup) (hx : s[x]? = some (some c))
    (ho : ∀ k ∈ cardIds o, k ∉ s.flatMap cardIds) (hod : (cardIds o).Nodup) : ((s.set x o).flatMap cardIds).Nodup := by
  have hp := set_flat cardIds s x (some c) o hx
  have : (cardIds o ++ s.flatMap cardIds).Nodup := by
    rw [List.nodup_append]
    exact ⟨hod, hn, fun a ha b hb e => ho a ha (e ▸ hb)⟩
  have := hp.nodup this
  rw [List.nodup_append] at this
  exact this.2.1

theorem assignCard_ok {s : Sys} {S : Spec} {leak base : List Nat} (h : Inv s S leak base) {x y : Nat} {c d : SCard}
    (hx : sobj S.cards x = some c) (hy : sobj S.cards y = some d) {v : CardMem} (hv : S.value d = some v) (hxy : x ≠ y) :
    Good (.assignCard x y) s S { S with cards := S.cards.set x (some (.own v)), leaks := S.leaks + c.lost } .unit
      leak base := by
  rw [h.cards] at hx hy
  obtain ⟨c, c1, rfl, c3⟩ := sobj_map hx
  obtain ⟨d, d1, rfl, d3⟩ := sobj_map hy
  have hl := load_ok h d1 hv
  have hn := newCopy_ok h v
  refine ⟨{ (newCopy s v).1 with cards := s.cards.set x (some (newCopy s v).2) },
    cardBlks (newCopy s v).1.copies (some c) ++ leak,
    by simp only [step, c3, d3, Res.bind_ok, hl, if_neg hxy], ⟨h.files, h.fileOk, h.kws, h.kwsOk, h.kwsNodup, h.alive,
      h.slices, h.keys, ?_, ?_, ?_, h.cfgs, h.cfgOk, h.warns, ?_⟩, fun _ => ?_⟩
  · have := hn.cards
    simp only [List.map_set]
    rw [this]
    simp [newCopy, absCard]
  · intro q hq
    rcases mem_set_or hq with hq | hq
    · exact hn.cardOk q hq
    · cases hq
      exact ⟨rfl, by simp [newCopy]⟩
  · refine nodup_set h.cardNodup c1 (fun k hk hk2 => ?_) (by simp [newCopy, cardIds])
    simp only [newCopy, cardIds, List.mem_singleton] at hk
    have := ids_lt h hk2
    omega
  · refine hn.own.perm ?_
    have := set_flat (cardBlks (newCopy s v).1.copies) s.cards x (some c) (some (newCopy s v).2) c1
    rw [show cardBlks (newCopy s v).1.copies (some (newCopy s v).2) =
      copyBlks (newCopy s v).1.copies s.copies.length from rfl] at this
    simp only [show (newCopy s v).1.cards = s.cards from rfl, Sys.blks]
    cnt from this
  · have e := lost_eq h (mem_of_get c1)
    have e2 : cardBlks (newCopy s v).1.copies (some c) = cardBlks s.copies (some c) :=
      cardBlks_append (h.cardOk c (mem_of_get c1)) _
    simp only [e2, List.length_append]
    omega

theorem moveAssignCard_ok {s : Sys} {S : Spec} {leak base : List Nat} (h : Inv s S leak base) {x y : Nat} {c d : SCard}
    (hx : sobj S.cards x = some c) (hy : sobj S.cards y = some d) :
    Good (.moveAssignCard x y) s S
      { S with cards := (S.cards.set x (some d)).set y (some .moved), leaks := S.leaks + c.lost } .unit leak base := by
  rw [h.cards] at hx hy
  obtain ⟨c, c1, rfl, c3⟩ := sobj_map hx
  obtain ⟨d, d1, rfl, d3⟩ := sobj_map hy
  have hyx : (s.cards.set x (some d))[y]? = some (some d) := by
    rw [List.getElem?_set]
    split
    · rename_i e
      subst e
      rw [if_pos (List.getElem?_eq_some_iff.1 c1).1]
    · exact d1
  have p1 := fun (f : Option CardObj → List Nat) (h0 : f (some ⟨none, false⟩) = []) => by
    have a1 := set_flat f s.cards x (some c) (some d) c1
    have a2 := set_flat f (s.cards.set x (some d)) y (some d) (some ⟨none, false⟩) hyx
    rw [h0, List.nil_append] at a2
    exact (List.perm_append_left_iff (f (some d))).1 (a1.trans ((List.Perm.append_left (f (some c)) a2).trans
      (show (f (some c) ++ (f (some d) ++ ((s.cards.set x (some d)).set y (some ⟨none, false⟩)).flatMap f)).Perm
        (f (some d) ++ (f (some c) ++ ((s.cards.set x (some d)).set y (some ⟨none, false⟩)).flatMap f)) by perms)))
  refine ⟨{ s with cards := (s.cards.set x (some d)).set y (some ⟨none, false⟩) }, cardBlks s.copies (some c) ++ leak,
    by simp only [step, c3, d3, Res.bind_ok], ⟨h.files, h.fileOk, h.kws, h.kwsOk, h.kwsNodup, h.alive,
      h.slices, h.keys, ?_, ?_, ?_, h.cfgs, h.cfgOk, h.warns, ?_⟩, fun _ => ?_⟩
  · simp only [List.map_set, h.cards]; rfl
  · intro q hq
    rcases mem_set_or hq with hq | hq
    · rcases mem_set_or hq with hq | hq
      · exact h.cardOk q hq
      · cases hq
        exact h.cardOk d (mem_of_get d1)
    · cases hq
      rfl
  · have := (p1 cardIds rfl).nodup h.cardNodup
    rw [List.nodup_append] at this
    exact this.2.1
  · refine h.own.perm ?_
    cnt from p1 (cardBlks s.copies) rfl
  · have e := lost_eq h (mem_of_get c1)
    simp only [List.length_append]
    omega

theorem dropCard_ok {s : Sys} {S : Spec} {leak base : List Nat} (h : Inv s S leak base) {x : Nat} {c : SCard}
    (hx : sobj S.cards x = some c) :
    Good (.dropCard x) s S { S with cards := S.cards.set x none } .unit leak base := by
  rw [h.cards] at hx
  obtain ⟨c, c1, rfl, c3⟩ := sobj_map hx
  have hp := set_flat (cardBlks s.copies) s.cards x (some c) none c1
  rw [show cardBlks s.copies none = [] from rfl, List.nil_append] at hp
  have hc := h.cardOk c (mem_of_get c1)
  have main : ∃ m', dropCardM s c = .ok m' ∧ Owns m' (Sys.blks { s with cards := s.cards.set x none } ++ leak ++ base) := by
    obtain ⟨hd, del⟩ := c
    unfold dropCardM
    cases hd with
    | none =>
      have : del = false := hc
      subst this
      refine ⟨s.m, rfl, h.own.perm ?_⟩
      rw [show cardBlks s.copies (some ⟨none, false⟩) = [] from rfl] at hp
      cnt from hp
    | some p =>
      cases p with
      | kw f i j =>
        have : del = false := hc
        subst this
        refine ⟨s.m, rfl, h.own.perm ?_⟩
        rw [show cardBlks s.copies (some ⟨some (.kw f i j), false⟩) = [] from rfl] at hp
        cnt from hp
      | copy k =>
        obtain ⟨g1, g2⟩ := hc
        simp only at g1
        subst g1
        have hb : cardBlks s.copies (some ⟨some (.copy k), true⟩) = [s.copies[k].blk, s.copies[k].str] := by
          simp only [cardBlks, copyBlks, List.getElem?_eq_getElem g2]
        rw [hb] at hp
        have ho : Owns s.m (s.copies[k].str :: s.copies[k].blk ::
          (Sys.blks { s with cards := s.cards.set x none } ++ leak ++ base)) := h.own.perm (by cnt from hp)
        have u := use_ok (b := s.copies[k].blk) ho (by simp)
        obtain ⟨m1, e1, h1⟩ := free_ok ho
        obtain ⟨m2, e2, h2⟩ := free_ok h1
        exact ⟨m2, by simp only [if_true, List.getElem?_eq_getElem g2, Res.ofOption_some, Res.bind_ok, u, e1, e2], h2⟩
  obtain ⟨m', e1, e2⟩ := main
  refine ⟨{ s with m := m', cards := s.cards.set x none }, leak, by simp only [step, c3, Res.bind_ok, e1],
    ⟨h.files, h.fileOk, h.kws, h.kwsOk, h.kwsNodup, h.alive, h.slices, h.keys, ?_, ?_, ?_, h.cfgs, h.cfgOk, h.warns, e2⟩,
    fun _ => rfl⟩
  · simp only [List.map_set, h.cards]; rfl
  · intro q hq
    rcases mem_set_or hq with hq | hq
    · exact h.cardOk q hq
    · cases hq
  · exact nodup_set h.cardNodup c1 (by simp [cardIds]) (by simp [cardIds])

theorem fileBlks_modify {fs : List FileMem} {f : Nat} {u : FileMem → FileMem}
    (hu : ∀ fl, (u fl).arr = fl.arr ∧ (u fl).blks = fl.blks) (g : Nat) :
    fileBlks (fs.modify f u) g = fileBlks fs g := by
  unfold fileBlks
  rw [List.getElem?_modify]
  by_cases e : f = g
  · subst e
    cases fs[f]? with
    | none => rfl
    | some fl => simp [hu fl]
  · simp only [if_neg e]
    cases fs[g]? <;> rfl

theorem setCard_get {kws : List KwMem} {i j n : Nat} {c : CardMem} {kw : KwMem}
    (h : (setCard kws i j c)[n]? = some kw) : ∃ kw0, kws[n]? = some kw0 ∧ kw.cards.length = kw0.cards.length := by
  unfold setCard at h
  rw [List.getElem?_modify] at h
  cases hk : kws[n]? with
  | none => rw [hk] at h; simp at h
  | some kw0 =>
    rw [hk] at h
    refine ⟨kw0, rfl, ?_⟩
    simp at h
    subst h
    split <;> simp [KwMem.setCard]

theorem FileOk.set {fl : FileMem} (h : FileOk fl) (i j : Nat) (c : CardMem) :
    FileOk { fl with kws := setCard fl.kws i j c } := by
  have hlen : (setCard fl.kws i j c).length = fl.kws.length := by simp [setCard]
  refine ⟨by simp only [hlen, h.1], fun hne => h.2.1 (fun e => hne ?_), fun n kw b h1 h2 => ?_⟩
  · simp only at hne ⊢
    exact List.length_eq_zero_iff.1 (by rw [hlen, e]; rfl)
  · obtain ⟨kw0, g1, g2⟩ := setCard_get h1
    obtain ⟨a1, a2⟩ := h.2.2 n kw0 b g1 h2
    refine ⟨by rw [a1, g2], fun hne => a2 (fun e => hne ?_)⟩
    exact List.length_eq_zero_iff.1 (by rw [g2, e]; rfl)

theorem storeFile_ok {s : Sys} {S : Spec} {leak base : List Nat} (h : Inv s S leak base) (x f i j : Nat) (c : CardMem) :
    Inv (store s c (.kw f i j)) (S.put x c (.view f i j)) leak base := by
  have hb := fileBlks_modify (fs := s.files) (f := f) (u := fun fl => { fl with kws := setCard fl.kws i j c })
    (fun fl => ⟨rfl, rfl⟩)
  refine ⟨?_, ?_, h.kws, ?_, h.kwsNodup, ?_, h.slices, h.keys, h.cards, h.cardOk, h.cardNodup, h.cfgs, h.cfgOk, h.warns,
    ?_⟩
  · simp only [Spec.put, store, h.files]
    apply List.ext_getElem?
    intro n
    simp only [List.getElem?_modify, List.getElem?_map]
    cases s.files[n]? with
    | none => rfl
    | some fl =>
      by_cases e : f = n
      · simp [e, setCard]
        rfl
      · simp [e]
  · intro fl hfl
    obtain ⟨n, hn⟩ := List.mem_iff_getElem?.1 hfl
    simp only [store, List.getElem?_modify] at hn
    cases hs : s.files[n]? with
    | none => rw [hs] at hn; simp at hn
    | some fl0 =>
      rw [hs] at hn
      have h0 := h.fileOk fl0 (List.mem_of_getElem? hs)
      simp at hn
      subst hn
      split
      · exact h0.set i j c
      · exact h0
  · intro k hk
    have := h.kwsOk k hk
    unfold KwsOk at *
    split
    · rename_i e
      simpa [e] using this
    · rename_i g e
      simp only [e] at this
      obtain ⟨fl, f1, f2⟩ := this
      by_cases eg : f = g
      · subst eg
        exact ⟨{ fl with kws := setCard fl.kws i j c }, by simp [store, f1], by simp [f2, setCard]⟩
      · exact ⟨fl, by simp [store, f1, eg], f2⟩
  · intro g hg hgone
    exact h.alive g (by simpa [store] using hg) hgone
  · refine h.own.perm ?_
    have e : s.kws.flatMap (kwsBlks (store s c (.kw f i j)).files) = s.kws.flatMap (kwsBlks s.files) :=
      flat_congr rfl (fun k _ => by
        unfold kwsBlks
        split
        · exact hb _
        · rfl)
    simp only [Sys.blks]
    rw [show (store s c (.kw f i j)).kws = s.kws from rfl, e]
    exact List.Perm.refl _

theorem storeCopy_ok {s : Sys} {S : Spec} {leak base : List Nat} (h : Inv s S leak base) {x k : Nat} {del : Bool}
    (hx : s.cards[x]? = some (some ⟨some (.copy k), del⟩)) (c v : CardMem) :
    Inv (store s c (.copy k)) (S.put x c (.own v)) leak base := by
  obtain ⟨g1, g2⟩ := h.cardOk _ (mem_of_get hx)
  simp only at g1
  subst g1
  have hlen : (store s c (.copy k)).copies.length = s.copies.length := by simp [store]
  refine ⟨h.files, h.fileOk, h.kws, h.kwsOk, h.kwsNodup, h.alive, h.slices, h.keys, ?_, ?_, h.cardNodup, h.cfgs, h.cfgOk,
    h.warns, ?_⟩
  · simp only [Spec.put, h.cards]
    apply List.ext_getElem?
    intro n
    rw [List.getElem?_set, List.getElem?_map, List.getElem?_map]
    by_cases e : x = n
    · subst e
      rw [if_pos rfl, if_pos (by simpa using (List.getElem?_eq_some_iff.1 hx).1)]
      rw [show (store s c (.copy k)).cards = s.cards from rfl, hx]
      simp [store, absCard, g2]
    · rw [if_neg e, show (store s c (.copy k)).cards = s.cards from rfl]
      cases hn : s.cards[n]? with
      | none => rfl
      | some o =>
        cases o with
        | none => rfl
        | some d =>
          simp only [Option.map_some, Option.some.injEq]
          have hd := h.cardOk d (mem_of_get hn)
          obtain ⟨hh, del⟩ := d
          cases hh with
          | none => rfl
          | some p =>
            cases p with
            | kw _ _ _ => rfl
            | copy k' =>
              have hne : k ≠ k' := by
                intro ek
                subst ek
                have hdel : del = true := hd.1
                subst hdel
                exact e (flat_uniq cardIds _ h.cardNodup x n _ _ k hx hn (by simp [cardIds]) (by simp [cardIds]))
              simp [absCard, store, hne]
  · intro d hd
    have := h.cardOk d hd
    unfold CardOk at *
    rw [hlen]
    exact this
  · refine h.own.perm ?_
    have e : s.cards.flatMap (cardBlks (store s c (.copy k)).copies) = s.cards.flatMap (cardBlks s.copies) :=
      flat_congr rfl (fun d _ => by
        unfold cardBlks
        split
        · rename_i k' _
          unfold copyBlks
          simp only [store, List.getElem?_modify]
          cases s.copies[k']? with
          | none => rfl
          | some b => by_cases ek : k = k' <;> simp [ek]
        · rfl)
    simp only [Sys.blks]
    rw [show (store s c (.copy k)).cards = s.cards from rfl, e]
    exact List.Perm.refl _

theorem op_ok {s : Sys} {S : Spec} {leak base : List Nat} (h : Inv s S leak base) {x : Nat} {c : SCard}
    (hx : sobj S.cards x = some c) {v : CardMem} (hv : S.value c = some v) {o : CardOp} {r : CardMem × Out}
    (hr : cardCall v o = .ok r) : Good (.op x o) s S (S.put x r.1 c) r.2 leak base := by
  rw [h.cards] at hx
  obtain ⟨c, c1, rfl, c3⟩ := sobj_map hx
  have hl := load_ok h c1 hv
  have hc := h.cardOk c (mem_of_get c1)
  obtain ⟨hd, del⟩ := c
  cases hd with
  | none => simp [absCard, Spec.value] at hv
  | some p =>
    refine ⟨store s r.1 p, leak, by simp only [step, opM, c3, Res.bind_ok, hl, hr], ?_, fun _ => ?_⟩
    · cases p with
      | kw f i j => exact storeFile_ok h x f i j r.1
      | copy k =>
        have hk : k < s.copies.length := hc.2
        have e : absCard s.copies ⟨some (.copy k), del⟩ = .own s.copies[k].card := by
          simp only [absCard, List.getElem?_eq_getElem hk]
        rw [e]
        exact storeCopy_ok h c1 r.1 _
    · have : (S.put x r.1 (absCard s.copies ⟨some p, del⟩)).leaks = S.leaks := by
        cases absCard s.copies ⟨some p, del⟩ <;> rfl
      rw [this]

/-! ### `KeyFile::parse` -/

theorem freeWarn_ok {keep : Bool} {p : Parsed} {L : List Nat} (h : Owns p.mem (p.warn.toList ++ L)) :
    ∃ m, freeWarn keep p = .ok m ∧ Owns m ((keepWarn keep p.warn).flatMap Option.toList ++ L) := by
  unfold freeWarn keepWarn
  cases keep with
  | true =>
    refine ⟨p.mem, rfl, ?_⟩
    cases hw : p.warn with
    | none => rw [hw] at h; exact h
    | some b => rw [hw] at h; exact h
  | false => exact freeOpt_ok h

theorem keepWarn_spec (keep : Bool) (warn : Option Nat) (msgs : List Bytes) (hw : warn.isSome = decide (msgs ≠ []))
    (ws : List (Option Nat)) :
    addWarn (ws.map Option.isSome) keep msgs = (ws ++ keepWarn keep warn).map Option.isSome := by
  unfold addWarn keepWarn
  cases keep with
  | false => simp
  | true =>
    by_cases hm : msgs = []
    · subst hm
      cases warn with
      | none => simp
      | some b => simp at hw
    · rw [if_pos ⟨rfl, hm⟩]
      cases warn with
      | none => simp [hm] at hw
      | some b => simp

theorem fresh_ok {arr : Option Nat} {ks : List Keyword} {kws : List KwBlk} (h : Layout arr ks kws)
    (hlen : kws.length = ks.length) : FileOk ⟨arr, kws, fresh ks⟩ := by
  refine ⟨by simp [fresh, hlen], fun hne => h.1.2 (fun e => hne (by simp [fresh, e])), fun i kw b h1 h2 => ?_⟩
  simp only [fresh, List.getElem?_map] at h1
  obtain ⟨k, k1, rfl⟩ := Option.map_eq_some_iff.1 h1
  obtain ⟨a1, a2⟩ := h.2 i k b k1 h2
  refine ⟨by simp [a1], fun hne => a2 (fun e => hne (by simp [e]))⟩

theorem fileBlks_append {fs : List FileMem} {fl : FileMem} {f : Nat} (h : f < fs.length) :
    fileBlks (fs ++ [fl]) f = fileBlks fs f := by
  unfold fileBlks
  rw [List.getElem?_append_left h]

/-- Auxiliary: the result of the specification of a parse. -/
def parsedSpec (S : Spec) (c : Config) (keep : Bool) (r : Key.Shared) (ks : List Keyword) : Spec × Out :=
  if r.errors = [] then
    ({ S with files := S.files ++ [fresh ks], kws := S.kws ++ [some (some S.files.length)],
              warns := addWarn S.warns keep r.warnings, leaks := S.leaks + c.extraPaths.length }, .unit)
  else ({ S with warns := addWarn S.warns keep r.warnings, leaks := S.leaks + c.extraPaths.length }, .exn)

theorem parse_ok {s : Sys} {S : Spec} {leak base : List Nat} (h : Inv s S leak base) {x : Nat} {c : Config}
    (hx : sobj S.cfgs x = some c) {w : World} {depth : Nat} {file : Bytes} {r : Key.Shared} {ks : List Keyword}
    (hr : parseTop w c depth file = .ok r) (hks : buildKeywords r.events = .ok ks) (keep : Bool) :
    Good (.parse w depth file x keep) s S (parsedSpec S c keep r ks).1 (parsedSpec S c keep r ks).2 leak base := by
  rw [h.cfgs] at hx
  obtain ⟨d, d1, rfl, d3⟩ := sobj_map hx
  obtain ⟨m1, c1, e1, e2, e3, e4⟩ := copyCfgM_ok h.own (h.cfgOk d (mem_of_get d1)) (fun b hb => by
    have := mem_flat (f := cfgBlks) d1 hb
    simp only [Sys.blks, List.mem_append]
    exact .inl (.inl (.inl (.inr this))))
  obtain ⟨p, lk, a1, a2, a3, a4, a5, a6, a7, a8⟩ := c86_key_file_parse_partial w d.cfg depth file true true m1 _ e4 r ks
    hr hks
  rw [Bool.true_and] at a5 a6
  obtain ⟨m2, b1, b2⟩ := freeWarn_ok (keep := keep) (p := p) (L := kwBlks p.arr p.kws ++ p.err.toList ++ lk ++
    (c1.arr.toList ++ c1.strs ++ (s.blks ++ leak ++ base))) (a7.perm (by perms))
  have hwarns := keepWarn_spec keep p.warn r.warnings a6 s.warns
  have hstrs : c1.strs.length = d.cfg.extraPaths.length := by rw [e3.1, e2]
  unfold parsedSpec
  by_cases he : r.errors = []
  · have hp : p.err = none := by
      rw [decide_eq_false (by simpa using he)] at a5
      simpa using a5
    rw [if_pos he] at a2 ⊢
    rw [hp] at b2
    obtain ⟨m3, g1, g2⟩ := dropCfgM_ok (m := m2) (c := c1) (L := (keepWarn keep p.warn).flatMap Option.toList ++
      (kwBlks p.arr p.kws ++ lk ++ (s.blks ++ leak ++ base))) (b2.perm (by perms))
    refine ⟨{ s with m := m3, warns := s.warns ++ keepWarn keep p.warn,
                     files := s.files ++ [⟨p.arr, p.kws, fresh p.keywords⟩],
                     kws := s.kws ++ [some ⟨some s.files.length, p.keywords.length⟩] }, c1.strs ++ lk ++ leak,
      by simp only [step, d3, Res.bind_ok, parseM, e1, e2, a1, parseEnd, b1, hp, g1],
      ⟨?_, ?_, ?_, ?_, ?_, ?_, h.slices, h.keys, h.cards, h.cardOk, h.cardNodup, h.cfgs, h.cfgOk, ?_, ?_⟩, fun hn => ?_⟩
    · simp only [List.map_append, h.files, ← a2]; rfl
    · intro fl hfl
      simp only [List.mem_append, List.mem_singleton] at hfl
      rcases hfl with hfl | rfl
      · exact h.fileOk fl hfl
      · exact fresh_ok a4 a3
    · simp only [List.map_append, h.kws, h.files, List.length_map]; rfl
    · intro k hk
      rcases mem_append_one hk with hk | hk
      · have := h.kwsOk k hk
        unfold KwsOk at *
        split
        · rename_i e
          simpa [e] using this
        · rename_i g e
          simp only [e] at this
          obtain ⟨fl, f1, f2⟩ := this
          exact ⟨fl, by rw [List.getElem?_append_left (List.getElem?_eq_some_iff.1 f1).1]; exact f1, f2⟩
      · cases hk
        exact ⟨⟨p.arr, p.kws, fresh p.keywords⟩, by simp, by simp [fresh]⟩
    · simp only [List.flatMap_append, List.flatMap_cons, List.flatMap_nil, kwsIds, List.append_nil]
      rw [List.nodup_append]
      refine ⟨h.kwsNodup, by simp, fun a ha b hb => ?_⟩
      simp only [List.mem_singleton] at hb
      obtain ⟨o, o1, o2⟩ := List.mem_flatMap.1 ha
      have : a < s.files.length := by
        unfold kwsIds at o2
        split at o2
        · rename_i g n
          simp only [List.mem_singleton] at o2
          subst o2
          obtain ⟨fl, f1, _⟩ := h.kwsOk _ o1
          exact (List.getElem?_eq_some_iff.1 f1).1
        · cases o2
      omega
    · intro f hf hg
      simp only [List.flatMap_append, List.flatMap_cons, List.flatMap_nil, kwsIds, List.append_nil, List.mem_append,
        List.mem_singleton]
      simp only [List.length_append, List.length_cons, List.length_nil] at hf
      by_cases e : f = s.files.length
      · exact .inr e
      · exact .inl (h.alive f (by omega) hg)
    · simp only [h.warns, hwarns]
    · refine g2.perm ?_
      have e : s.kws.flatMap (kwsBlks (s.files ++ [⟨p.arr, p.kws, fresh p.keywords⟩])) = s.kws.flatMap (kwsBlks s.files) :=
        flat_congr rfl (fun k hk => by
          unfold kwsBlks
          split
          · rename_i g n hkk
            simp only [Option.some.injEq] at hkk
            subst hkk
            obtain ⟨fl, f1, _⟩ := h.kwsOk _ hk
            exact fileBlks_append (List.getElem?_eq_some_iff.1 f1).1
          · rfl)
      simp only [Sys.blks, List.flatMap_append, List.flatMap_cons, List.flatMap_nil, List.append_nil]
      rw [e]
      simp only [kwsBlks, fileBlks, List.getElem?_concat_length]
      perms
    · have := a8 hn
      subst this
      simp only [List.length_append, List.length_nil]
      omega
  · have hp : p.err.isSome = true := by
      rw [a5, decide_eq_true he]
    obtain ⟨eb, hp⟩ := Option.isSome_iff_exists.1 hp
    rw [if_neg he] at a2 ⊢
    rw [hp] at b2
    obtain ⟨m3, g1, g2⟩ := free_ok (m := m2) (b := eb) (L := (keepWarn keep p.warn).flatMap Option.toList ++
      (kwBlks p.arr p.kws ++ lk ++ (c1.arr.toList ++ c1.strs ++ (s.blks ++ leak ++ base)))) (b2.perm (by perms))
    obtain ⟨m4, g3, g4⟩ := dropCfgM_ok (m := m3) (c := c1) (L := (keepWarn keep p.warn).flatMap Option.toList ++
      (kwBlks p.arr p.kws ++ lk ++ (s.blks ++ leak ++ base))) (g2.perm (by perms))
    have hk0 : p.kws = [] := by rw [a2] at a3; exact List.length_eq_zero_iff.1 a3
    have ha0 : p.arr = none := by
      have := a4.1
      rw [a2] at this
      cases ha : p.arr with
      | none => rfl
      | some b => rw [ha] at this; simp at this
    refine ⟨{ s with m := m4, warns := s.warns ++ keepWarn keep p.warn }, c1.strs ++ lk ++ leak,
      by simp only [step, d3, Res.bind_ok, parseM, e1, e2, a1, parseEnd, b1, hp, g1, g3],
      ⟨h.files, h.fileOk, h.kws, h.kwsOk, h.kwsNodup, h.alive, h.slices, h.keys, h.cards, h.cardOk, h.cardNodup, h.cfgs,
        h.cfgOk, ?_, ?_⟩, fun hn => ?_⟩
    · simp only [h.warns, hwarns]
    · refine g4.perm ?_
      simp only [Sys.blks, List.flatMap_append, kwBlks, hk0, ha0, List.flatMap_nil]
      perms
    · have := a8 hn
      subst this
      simp only [List.length_append, List.length_nil]
      omega

/-! ## Programs -/

theorem bind_some_inv {α β : Type} {x : Option α} {f : α → Option β} {b : β} (h : (x >>= f) = some b) :
    ∃ a, x = some a ∧ f a = some b := by
  cases x with
  | none => cases h
  | some a => exact ⟨a, rfl, h⟩

theorem step_ok {s : Sys} {S S' : Spec} {leak base : List Nat} {o : Out} (h : Inv s S leak base) (c : Cmd)
    (hc : S.step c = some (S', o)) : Good c s S S' o leak base := by
  cases c with
  | newCfg c =>
    simp only [Spec.step, Option.some.injEq, Prod.mk.injEq] at hc
    obtain ⟨rfl, rfl⟩ := hc
    exact newCfg_ok h c
  | copyCfg x =>
    obtain ⟨c, h1, hc⟩ := bind_some_inv hc
    simp only [Option.some.injEq, Prod.mk.injEq] at hc
    obtain ⟨rfl, rfl⟩ := hc
    exact copyCfg_ok h h1
  | moveCfg x =>
    obtain ⟨c, h1, hc⟩ := bind_some_inv hc
    simp only [Option.some.injEq, Prod.mk.injEq] at hc
    obtain ⟨rfl, rfl⟩ := hc
    exact moveCfg_ok h h1
  | dropCfg x =>
    obtain ⟨c, h1, hc⟩ := bind_some_inv hc
    simp only [Option.some.injEq, Prod.mk.injEq] at hc
    obtain ⟨rfl, rfl⟩ := hc
    exact dropCfg_ok h h1
  | parse w depth file x keep =>
    obtain ⟨c, h1, hc⟩ := bind_some_inv hc
    obtain ⟨r, h2, hc⟩ := bind_some_inv hc
    obtain ⟨ks, h3, hc⟩ := bind_some_inv hc
    have hg := parse_ok h h1 (val_some h2) (val_some h3) keep
    unfold parsedSpec at hg
    split at hc
    · rename_i he
      simp only [Option.some.injEq, Prod.mk.injEq] at hc
      obtain ⟨rfl, rfl⟩ := hc
      rw [if_pos he] at hg
      exact hg
    · rename_i he
      simp only [Option.some.injEq, Prod.mk.injEq] at hc
      obtain ⟨rfl, rfl⟩ := hc
      rw [if_neg he] at hg
      exact hg
  | dropWarn x =>
    simp only [Spec.step] at hc
    split at hc
    · rename_i h1
      simp only [Option.some.injEq, Prod.mk.injEq] at hc
      obtain ⟨rfl, rfl⟩ := hc
      exact dropWarn_ok h h1
    · cases hc
  | moveKws x =>
    obtain ⟨c, h1, hc⟩ := bind_some_inv hc
    simp only [Option.some.injEq, Prod.mk.injEq] at hc
    obtain ⟨rfl, rfl⟩ := hc
    exact moveKws_ok h h1
  | dropKws x =>
    obtain ⟨c, h1, hc⟩ := bind_some_inv hc
    simp only [Option.some.injEq, Prod.mk.injEq] at hc
    obtain ⟨rfl, rfl⟩ := hc
    exact dropKws_ok h h1
  | size x =>
    obtain ⟨c, h1, hc⟩ := bind_some_inv hc
    obtain ⟨l, h2, hc⟩ := bind_some_inv hc
    simp only [Option.some.injEq, Prod.mk.injEq] at hc
    obtain ⟨rfl, rfl⟩ := hc
    exact size_ok h h1 h2
  | slice x name =>
    obtain ⟨k, h1, hc⟩ := bind_some_inv hc
    obtain ⟨l, h2, hc⟩ := bind_some_inv hc
    obtain ⟨r, h3, hc⟩ := bind_some_inv hc
    have h3 := val_some h3
    cases r with
    | none =>
      simp only [Option.some.injEq, Prod.mk.injEq] at hc
      obtain ⟨rfl, rfl⟩ := hc
      exact slice_exn h h1 h2 h3
    | some r =>
      cases k with
      | none => cases hc
      | some f =>
        simp only [Option.some.injEq, Prod.mk.injEq] at hc
        obtain ⟨rfl, rfl⟩ := hc
        exact slice_ok h h1 h2 h3
  | nth x i =>
    obtain ⟨sl, h1, hc⟩ := bind_some_inv hc
    split at hc
    · rename_i h2
      simp only [Option.some.injEq, Prod.mk.injEq] at hc
      obtain ⟨rfl, rfl⟩ := hc
      exact nth_ok h h1 h2
    · rename_i h2
      simp only [Option.some.injEq, Prod.mk.injEq] at hc
      obtain ⟨rfl, rfl⟩ := hc
      exact nth_exn h h1 h2
  | numCards x =>
    obtain ⟨k, h1, hc⟩ := bind_some_inv hc
    obtain ⟨kw, h2, hc⟩ := bind_some_inv hc
    simp only [Option.some.injEq, Prod.mk.injEq] at hc
    obtain ⟨rfl, rfl⟩ := hc
    exact numCards_ok h h1 h2
  | card x j =>
    obtain ⟨k, h1, hc⟩ := bind_some_inv hc
    obtain ⟨kw, h2, hc⟩ := bind_some_inv hc
    split at hc
    · rename_i h3
      simp only [Option.some.injEq, Prod.mk.injEq] at hc
      obtain ⟨rfl, rfl⟩ := hc
      exact card_ok h h1 h2 h3
    · rename_i h3
      simp only [Option.some.injEq, Prod.mk.injEq] at hc
      obtain ⟨rfl, rfl⟩ := hc
      exact card_exn h h1 h2 h3
  | copyCard x =>
    obtain ⟨c, h1, hc⟩ := bind_some_inv hc
    obtain ⟨v, h2, hc⟩ := bind_some_inv hc
    simp only [Option.some.injEq, Prod.mk.injEq] at hc
    obtain ⟨rfl, rfl⟩ := hc
    exact copyCard_ok h h1 h2
  | moveCard x =>
    obtain ⟨c, h1, hc⟩ := bind_some_inv hc
    simp only [Option.some.injEq, Prod.mk.injEq] at hc
    obtain ⟨rfl, rfl⟩ := hc
    exact moveCard_ok h h1
  | assignCard x y =>
    obtain ⟨c, h1, hc⟩ := bind_some_inv hc
    obtain ⟨d, h2, hc⟩ := bind_some_inv hc
    obtain ⟨v, h3, hc⟩ := bind_some_inv hc
    split at hc
    · cases hc
    · rename_i hxy
      simp only [Option.some.injEq, Prod.mk.injEq] at hc
      obtain ⟨rfl, rfl⟩ := hc
      exact assignCard_ok h h1 h2 h3 hxy
  | moveAssignCard x y =>
    obtain ⟨c, h1, hc⟩ := bind_some_inv hc
    obtain ⟨d, h2, hc⟩ := bind_some_inv hc
    simp only [Option.some.injEq, Prod.mk.injEq] at hc
    obtain ⟨rfl, rfl⟩ := hc
    exact moveAssignCard_ok h h1 h2
  | dropCard x =>
    obtain ⟨c, h1, hc⟩ := bind_some_inv hc
    simp only [Option.some.injEq, Prod.mk.injEq] at hc
    obtain ⟨rfl, rfl⟩ := hc
    exact dropCard_ok h h1
  | op x o =>
    obtain ⟨c, h1, hc⟩ := bind_some_inv hc
    obtain ⟨v, h2, hc⟩ := bind_some_inv hc
    obtain ⟨r, h3, hc⟩ := bind_some_inv hc
    simp only [Option.some.injEq, Prod.mk.injEq] at hc
    obtain ⟨rfl, rfl⟩ := hc
    exact op_ok h h1 h2 (val_some h3)

theorem run_ok : ∀ (p : List Cmd) {s : Sys} {S S' : Spec} {leak base : List Nat} {outs : List Out}, Inv s S leak base →
    S.run p = some (S', outs) → ∃ s' leak', run s p = .ok (s', outs) ∧ Inv s' S' leak' base ∧
      ((∀ c ∈ p, c.NoCont) → leak'.length + S.leaks = leak.length + S'.leaks)
  | [], s, S, S', leak, base, outs, h, hr => by
    simp only [Spec.run, Option.some.injEq, Prod.mk.injEq] at hr
    obtain ⟨rfl, rfl⟩ := hr
    exact ⟨s, leak, rfl, h, fun _ => rfl⟩
  | c :: p, s, S, S', leak, base, outs, h, hr => by
    obtain ⟨r, h1, hr⟩ := bind_some_inv hr
    obtain ⟨q, h2, hr⟩ := bind_some_inv hr
    simp only [Option.some.injEq, Prod.mk.injEq] at hr
    obtain ⟨rfl, rfl⟩ := hr
    obtain ⟨s1, l1, e1, i1, k1⟩ := step_ok (S' := r.1) (o := r.2) h c h1
    obtain ⟨s2, l2, e2, i2, k2⟩ := run_ok p (S' := q.1) (outs := q.2) i1 h2
    refine ⟨s2, l2, by simp only [run, e1, Res.bind_ok, e2], i2, fun hn => ?_⟩
    have := k1 (hn c List.mem_cons_self)
    have := k2 (fun c hc => hn c (List.mem_cons_of_mem _ hc))
    omega

theorem init_inv (m : Mem) : Inv { m := m } {} [] m.live :=
  ⟨rfl, by simp, rfl, by simp, by simp, by simp, rfl, rfl, rfl, by simp, by simp, rfl, by simp, rfl, List.Perm.refl _⟩

/-- C93: every program that is right in the world of values (where a copy of a card has its own text and position, a
view shows the card of the parse as long as the `Keywords` with the parse, wherever it has been moved to, exists, and a
moved or destroyed object is not used) runs in C++ without an error in the use of memory and with the same
results. Besides what was allocated before, the blocks of the objects that exist are allocated, and `leaks` others: 2
for each assignment to a `Card` that owned a card, and one for each extra include path of each destroyed
`ParseConfig` (also of the one that `KeyFile::parse` gets by value). What is missing: those should be 0, and files
with lines that end with `+` leave further blocks behind (C86). -/
theorem c93_objects_partial (m : Mem) (p : List Cmd) (S : Spec) (outs : List Out) (h : Spec.run {} p = some (S, outs)) :
    ∃ s leak, run { m := m } p = .ok (s, outs) ∧ Owns s.m (s.blks ++ leak ++ m.live) ∧
      ((∀ c ∈ p, c.NoCont) → leak.length = S.leaks) := by
  obtain ⟨s, leak, h1, h2, h3⟩ := run_ok p (init_inv m) h
  refine ⟨s, leak, h1, h2.own, fun hn => ?_⟩
  have := h3 hn
  simpa using this

/-- C93: if the program has destroyed all its objects, has assigned to no `Card` that owned a card and used no extra
include paths, everything has been released. -/
theorem c93_no_leak (m : Mem) (p : List Cmd) (S : Spec) (outs : List Out) (h : Spec.run {} p = some (S, outs))
    (he : S.Empty) (hl : S.leaks = 0) (hn : ∀ c ∈ p, c.NoCont) :
    ∃ s, run { m := m } p = .ok (s, outs) ∧ s.m.live.Perm m.live := by
  obtain ⟨s, leak, h1, h2, h3⟩ := run_ok p (init_inv m) h
  refine ⟨s, h1, h2.own.trans ?_⟩
  have hz : leak = [] := by
    have := h3 hn
    exact List.length_eq_zero_iff.1 (by simpa [hl] using this)
  obtain ⟨e1, e2, e3, e4⟩ := he
  rw [h2.kws] at e1
  rw [h2.cards] at e2
  rw [h2.cfgs] at e3
  rw [h2.warns] at e4
  have b1 : s.kws.flatMap (kwsBlks s.files) = [] := List.flatMap_eq_nil_iff.2 (fun o ho => by
    have := e1 _ (List.mem_map.2 ⟨o, ho, rfl⟩)
    rw [Option.map_eq_none_iff] at this
    rw [this]; rfl)
  have b2 : s.cards.flatMap (cardBlks s.copies) = [] := List.flatMap_eq_nil_iff.2 (fun o ho => by
    have := e2 _ (List.mem_map.2 ⟨o, ho, rfl⟩)
    rw [Option.map_eq_none_iff] at this
    rw [this]; rfl)
  have b3 : s.cfgs.flatMap cfgBlks = [] := List.flatMap_eq_nil_iff.2 (fun o ho => by
    have := e3 _ (List.mem_map.2 ⟨o, ho, rfl⟩)
    rw [Option.map_eq_none_iff] at this
    rw [this]; rfl)
  have b4 : s.warns.flatMap Option.toList = [] := List.flatMap_eq_nil_iff.2 (fun o ho => by
    have := e4 _ (List.mem_map.2 ⟨o, ho, rfl⟩)
    cases o with
    | none => rfl
    | some b => simp at this)
  simp only [Sys.blks, b1, b2, b3, b4, hz]
  exact List.Perm.refl _

/-- C93 is violated: a `ParseConfig` that is created and destroyed leaves the strings of its extra include paths
behind. -/
theorem c93_config_leak (m : Mem) (c : Config) :
    ∃ s leak, run { m := m } [.newCfg c, .dropCfg 0] = .ok (s, [.unit, .unit]) ∧ Owns s.m (leak ++ m.live) ∧
      leak.length = c.extraPaths.length := by
  obtain ⟨s, leak, h1, h2, h3⟩ := run_ok [.newCfg c, .dropCfg 0] (init_inv m)
    (S' := { cfgs := [none], leaks := c.extraPaths.length }) (outs := [.unit, .unit])
    (by simp [Spec.run, Spec.step, sobj])
  refine ⟨s, leak, h1, ?_, by simpa using h3 (by simp [Cmd.NoCont])⟩
  have e1 : s.kws = [] := by simpa using h2.kws.symm
  have e2 : s.cards = [] := by simpa using h2.cards.symm
  have e4 : s.warns = [] := by simpa using h2.warns.symm
  have e3 : s.cfgs.flatMap cfgBlks = [] := List.flatMap_eq_nil_iff.2 (fun o ho => by
    have : o.map CfgObj.cfg ∈ [none] := by
      have := h2.cfgs
      simp only at this
      rw [this]
      exact List.mem_map.2 ⟨o, ho, rfl⟩
    simp at this
    rw [this]; rfl)
  have := h2.own
  simpa [Sys.blks, e1, e2, e3, e4] using this

/-- C93: a `Card` that has been moved from is a null pointer: a call on it or a copy of it is undefined. So is the
assignment of a `Card` to itself, whatever it is. -/
theorem c93_moved_card (s : Sys) (x : Nat) (del : Bool) (h : s.cards[x]? = some (some ⟨none, del⟩)) (o : CardOp) :
    step s (.op x o) = .ub ∧ step s (.copyCard x) = .ub ∧ ∀ y, y < s.cards.length → step s (.assignCard y y) = .ub := by
  have e : obj s.cards x = .ok ⟨none, del⟩ := by simp only [obj, h]
  refine ⟨by simp only [step, opM, e, Res.bind_ok, load]; rfl, by simp only [step, e, Res.bind_ok, load]; rfl, ?_⟩
  intro y _
  simp only [step]
  unfold obj
  split
  · simp only [Res.bind_ok, if_true]
  · rfl

/-- C93: between the parse and `begin` a card has no position: everything but `begin` and the whole text is
undefined, also through Python. -/
theorem c93_not_begun (t : Bytes) (o : CardOp) :
    cardCall ⟨t, none⟩ o = .ub ∨ (∃ w, o = .begin w) ∨ o = .whole := by
  cases o <;> first | exact .inl rfl | exact .inr (.inl ⟨_, rfl⟩) | exact .inr (.inr rfl)

/-- Specification of the examples: results and number of blocks. -/
def summary (p : List Cmd) : Res (List Out × Nat) := do
  let r ← run {} p
  .ok (r.2, r.1.m.live.length)

/-- Specification of the examples: results, objects that exist, leaks. -/
def specSummary (p : List Cmd) : Option (List Out × List Bool × Nat) :=
  (Spec.run {} p).map fun r => (r.2, r.1.kws.map Option.isSome ++ r.1.cards.map Option.isSome ++
    r.1.cfgs.map Option.isSome ++ r.1.warns, r.1.leaks)

theorem specSummary_empty {p : List Cmd} {outs : List Out} {n : Nat} {l : List Bool}
    (h : specSummary p = some (outs, l, n)) (hl : ∀ b ∈ l, b = false) :
    ∃ S, Spec.run {} p = some (S, outs) ∧ S.Empty ∧ S.leaks = n := by
  unfold specSummary at h
  obtain ⟨⟨S, o⟩, h1, h2⟩ := Option.map_eq_some_iff.1 h
  simp only [Prod.mk.injEq] at h2
  obtain ⟨rfl, rfl, rfl⟩ := h2
  refine ⟨S, h1, ⟨fun x hx => ?_, fun x hx => ?_, fun x hx => ?_, fun x hx => ?_⟩, rfl⟩
  · have := hl x.isSome (by simp only [List.mem_append]; exact .inl (.inl (.inl (List.mem_map.2 ⟨x, hx, rfl⟩))))
    simpa using this
  · have := hl x.isSome (by simp only [List.mem_append]; exact .inl (.inl (.inr (List.mem_map.2 ⟨x, hx, rfl⟩))))
    simpa using this
  · have := hl x.isSome (by simp only [List.mem_append]; exact .inl (.inr (List.mem_map.2 ⟨x, hx, rfl⟩)))
    simpa using this
  · exact hl x (by simp only [List.mem_append]; exact .inr hx)

/-- The start of the examples: the keyword `NODE` of the file of `c83_example` and its first card. -/
def openNode : List Cmd :=
  [.newCfg {}, .parse Key.infoWorld 3 (bs "/w/m.k") 0 false, .dropCfg 0, .size 0, .slice 0 (bs "NODE"), .nth 0 0,
   .numCards 0, .card 0 0]

/-- A program with views, copies and moves: the `Keywords` is moved and the view still works; the copy has its own
position and outlives the `Keywords`; at the end all is released. -/
def exampleProgram : List Cmd :=
  openNode ++ [.moveKws 0, .op 0 (.begin 1), .copyCard 0, .op 0 .next, .op 0 .done, .op 1 .done, .op 1 .isEmpty,
    .card 0 0, .op 2 .parseInt, .card 0 7, .dropKws 0, .dropKws 1, .op 1 .next, .op 1 .parseInt, .op 1 .whole, .moveCard 1,
    .dropCard 0, .dropCard 1, .dropCard 2, .op 3 .parseInt, .dropCard 3]

/-- Specification of the example: its results. -/
def exampleOuts : List Out :=
  [.unit, .unit, .unit, .num 4, .unit, .unit, .num 2, .unit, .unit, .unit, .unit, .unit, .bool false, .bool false,
   .bool true, .unit, .int 1, .exn, .unit, .unit, .unit, .int 1, .text (bs "1"), .unit, .unit, .unit, .unit, .int 1, .unit]

/-- Not vacuous: the example program is right and releases everything. -/
theorem c93_example :
    (∃ S, Spec.run {} exampleProgram = some (S, exampleOuts) ∧ S.Empty ∧ S.leaks = 0) ∧
    (∀ c ∈ exampleProgram, c.NoCont) ∧ summary exampleProgram = .ok (exampleOuts, 0) := by
  refine ⟨specSummary_empty (l := [false, false, false, false, false, false, false]) (by decide +kernel) (by simp),
    ?_, by decide +kernel⟩
  have hn := noContinued_text c86_example.1
  simp [exampleProgram, openNode, Cmd.NoCont, hn]

/-- C93 is violated: assigning to a `Card` that owns a card loses its two blocks: they are allocated after all objects
have been destroyed. -/
theorem c93_assign_leak :
    summary (openNode ++ [.copyCard 0, .assignCard 1 0, .dropCard 0, .dropCard 1, .dropKws 0]) =
      .ok ([.unit, .unit, .unit, .num 4, .unit, .unit, .num 2, .unit, .unit, .unit, .unit, .unit, .unit], 2) ∧
    summary (openNode ++ [.copyCard 0, .moveAssignCard 1 0, .dropCard 0, .dropCard 1, .dropKws 0]) =
      .ok ([.unit, .unit, .unit, .num 4, .unit, .unit, .num 2, .unit, .unit, .unit, .unit, .unit, .unit], 2) := by
  decide +kernel

/-- C93 is violated in Python: no object of a key file keeps the `Keywords` alive (`__getitem__` without `keep_alive`).
In `key_file_parse(f)["NODE"][0]` the `Keywords` is destroyed as soon as the slice exists, and the number of cards is
read from memory that has been freed; the same for a card that outlives the `Keywords`. -/
theorem c93_python_dangling :
    summary [.newCfg {}, .parse Key.infoWorld 3 (bs "/w/m.k") 0 false, .dropCfg 0, .slice 0 (bs "NODE"), .dropKws 0,
      .nth 0 0, .numCards 0] = .ub ∧
    summary (openNode ++ [.op 0 (.begin 10), .dropKws 0, .op 0 .done]) = .ub ∧
    summary (openNode ++ [.op 0 (.begin 10), .op 0 .done]) =
      .ok ([.unit, .unit, .unit, .num 4, .unit, .unit, .num 2, .unit, .unit, .bool false], 10) := by
  decide +kernel

end Dyna.KeyOwn
