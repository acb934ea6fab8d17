import Verif.StateMem
import Verif.Props.KeyMem
/-!
# Property C87: the memory of element states
-/

namespace Dyna.StateMem

open Dyna.KeyMem Dyna.D3
open Dyna.Key (bind_ok_inv)

/-! ## Specification -/

/-- Specification: control data that `d3plot_open` accepts, with at least three integration points. -/
def Shape.Ok (sh : Shape) : Prop :=
  3 ≤ sh.points ∧ sh.points ≤ 255 ∧ sh.history ≤ 255 ∧ sh.n < 2 ^ 40

/-- Specification: control data of beams that `d3plot_read_beams_state` accepts. -/
def BeamShape.Ok (sh : BeamShape) : Prop := sh.points ≤ 255 ∧ sh.history ≤ 255 ∧ sh.n < 2 ^ 40

/-- Specification: number of blocks of an array with `k` elements. -/
def blocks (zero : Bool) (k : Nat) : Nat := if k = 0 then zero.toNat else 1

/-- Specification: the blocks that are lost in an operation. -/
def lost (zero : Bool) : Cmd → Nat
  | .shells thick sh out =>
    if sh.n = 0 then 0
    else
      match out with
      | .good => (if sh.history = 0 then zero.toNat else 0) + (if sh.points = 3 then zero.toNat else 0)
      | .failed =>
        if thick = false ∧ sh.wordSize = 4 then blocks zero sh.history + blocks zero (sh.points - 3) else 0
      | .unused => 0
  | .beams sh _ => if sh.n = 0 then 0 else blocks zero sh.points + blocks zero sh.history
  | _ => 0

/-- Specification: the blocks lost in a program. -/
def lostAll (zero : Bool) (cs : List Cmd) : Nat := (cs.map (lost zero)).sum

/-- Specification: control data of all reads are accepted, and nothing is copied. -/
def Cmd.Ok : Cmd → Prop
  | .shells _ sh _ => sh.Ok
  | .beams sh _ => sh.Ok
  | .copy _ => False
  | _ => True

/-- Specification: the block of a pointer. -/
def Ptr.blks : Ptr → List Nat
  | .at b _ => [b]
  | _ => []

/-- Specification: the blocks of shells: the array, the history variables and the additional integration points. -/
def ShellArr.blks (a : ShellArr) : List Nat :=
  a.blk.toList ++ match a.elems with
    | [] => []
    | e :: _ => e.mid.blks ++ e.add.blks

/-- Specification: the blocks that an object is responsible for. -/
def Obj.blks : Obj → List Nat
  | .shells a _ => a.blks
  | .beams a => a.blk.toList
  | .mean p => p.blks

/-- Specification: the blocks of all objects. -/
def objBlks (objs : List (Option Obj)) : List Nat := objs.flatMap fun o => match o with
  | none => []
  | some o => o.blks

/-! ## malloc and free -/

/-- Auxiliary: null or the start of a block. -/
def Ptr.Start (p : Ptr) : Prop := p = .null ∨ ∃ b, p = .at b 0

theorem malloc_ok {zero : Bool} {m : Mem} {n : Nat} {L : List Nat} (h : Owns m L) :
    Owns (malloc zero m n).1 ((malloc zero m n).2.blks ++ L) ∧ (malloc zero m n).2.Start := by
  unfold malloc
  split
  · split
    · exact ⟨alloc_ok h, .inr ⟨_, rfl⟩⟩
    · exact ⟨h, .inl rfl⟩
  · split
    · exact ⟨alloc_ok h, .inr ⟨_, rfl⟩⟩
    · exact ⟨h, .inl rfl⟩

theorem malloc_pos {zero : Bool} {m : Mem} {n : Nat} (h0 : n ≠ 0) (h1 : n < 2 ^ 63) :
    (malloc zero m n).2 = .at m.alloc.2 0 := by
  unfold malloc
  rw [if_neg h0, if_pos h1]

theorem malloc_len {zero : Bool} {m : Mem} {n k : Nat} (h0 : n = 0 ↔ k = 0) (h1 : n < 2 ^ 63) :
    (malloc zero m n).2.blks.length = blocks zero k := by
  unfold malloc blocks
  by_cases h : n = 0
  · rw [if_pos h, if_pos (h0.1 h)]
    cases zero <;> rfl
  · rw [if_neg h, if_neg (fun e => h (h0.2 e)), if_pos h1]
    rfl

theorem freePtr_ok {m : Mem} {p : Ptr} {L : List Nat} (hp : p.Start) (h : Owns m (p.blks ++ L)) :
    ∃ m', freePtr m p = .ok m' ∧ Owns m' L := by
  rcases hp with rfl | ⟨b, rfl⟩
  · exact ⟨m, rfl, h⟩
  · simp only [freePtr, if_true]
    exact free_ok h

/-! ## The pointers of the elements -/

theorem plus_zero (p : Ptr) (h : p.Start) : p.plus 0 = p := by
  rcases h with rfl | ⟨b, rfl⟩ <;> rfl

theorem plus_blks {p : Ptr} (k : Nat) (h : p.Start) : (p.plus k).blks = p.blks := by
  rcases h with rfl | ⟨b, rfl⟩
  · cases k <;> rfl
  · rfl

/-- Auxiliary: the pointer to history variables at a point. -/
def histAt (sh : Shape) (hist : Ptr) (i j : Nat) : Ptr :=
  if sh.history ≠ 0 then hist.plus (i * sh.points * sh.history + j * sh.history) else .null

theorem pointLoop_tail (sh : Shape) (hist add : Ptr) (i : Nat) : ∀ (left j : Nat) (e : ShellPtrs), 3 ≤ j →
    (pointLoop sh hist add i left j e).mid = e.mid ∧ (pointLoop sh hist add i left j e).inner = e.inner ∧
    (pointLoop sh hist add i left j e).outer = e.outer ∧
    (pointLoop sh hist add i left j e).add =
      (if left = 0 ∨ e.add ≠ .null then e.add else add.plus (i * (sh.points - 3)))
  | 0, _, e, _ => ⟨rfl, rfl, rfl, by simp [pointLoop]⟩
  | left + 1, j, e, hj => by
    obtain ⟨j, rfl⟩ : ∃ k, j = k + 3 := ⟨j - 3, by omega⟩
    have hs : setPoint sh hist add i (j + 3) e =
        if e.add = .null then { e with add := add.plus (i * (sh.points - 3)) } else e := rfl
    rw [pointLoop, hs]
    have ih := pointLoop_tail sh hist add i left (j + 3 + 1)
      (if e.add = .null then { e with add := add.plus (i * (sh.points - 3)) } else e) (by omega)
    obtain ⟨h1, h2, h3, h4⟩ := ih
    refine ⟨h1.trans ?_, h2.trans ?_, h3.trans ?_, h4.trans ?_⟩
    · split <;> rfl
    · split <;> rfl
    · split <;> rfl
    · by_cases ha : e.add = .null
      · simp only [ha, if_true, ne_eq, not_true, or_false, Nat.add_eq_zero_iff, Nat.succ_ne_self, and_false,
          if_false]
        split <;> simp
      · simp [ha]

theorem pointLoop_ok (sh : Shape) (hist add : Ptr) (i : Nat) (h3 : 3 ≤ sh.points) :
    pointLoop sh hist add i sh.points 0 {} = ⟨histAt sh hist i 0, histAt sh hist i 1, histAt sh hist i 2,
      if sh.points = 3 then .null else add.plus (i * (sh.points - 3))⟩ := by
  obtain ⟨k, hk⟩ : ∃ k, sh.points = k + 3 := ⟨sh.points - 3, by omega⟩
  have e : pointLoop sh hist add i sh.points 0 {} =
      pointLoop sh hist add i k 3 ⟨histAt sh hist i 0, histAt sh hist i 1, histAt sh hist i 2, .null⟩ := by
    conv => lhs; arg 5; rw [hk]
    rfl
  rw [e]
  obtain ⟨a1, a2, a3, a4⟩ := pointLoop_tail sh hist add i k 3
    ⟨histAt sh hist i 0, histAt sh hist i 1, histAt sh hist i 2, .null⟩ (by omega)
  generalize pointLoop sh hist add i k 3 ⟨histAt sh hist i 0, histAt sh hist i 1, histAt sh hist i 2, .null⟩ = r at *
  obtain ⟨r1, r2, r3, r4⟩ := r
  simp only at a1 a2 a3 a4
  subst a1 a2 a3 a4
  have : (k = 0 ∨ (Ptr.null ≠ Ptr.null)) ↔ sh.points = 3 := by simp; omega
  simp only [this]

/-- Auxiliary: what a read returns. -/
structure Whole (sh : Shape) (a : ShellArr) : Prop where
  ex : ∃ b hp ap, a = ⟨some b, elements sh hp ap⟩ ∧ hp.Start ∧ ap.Start ∧
    (sh.history ≠ 0 → hp ≠ .null) ∧ (sh.points ≠ 3 → ap ≠ .null)

/-- Auxiliary: an object that is in order. -/
def Obj.Good : Obj → Prop
  | .shells a h => a = {} ∨ ∃ sh : Shape, sh.Ok ∧ sh.n ≠ 0 ∧ h = sh.history ∧ Whole sh a
  | .beams _ => True
  | .mean p => p.Start

theorem elements_cons {sh : Shape} (hp ap : Ptr) (h0 : sh.n ≠ 0) (h3 : 3 ≤ sh.points) (h1 : hp.Start) (h2 : ap.Start) :
    ∃ e l, elements sh hp ap = e :: l ∧ e.mid = (if sh.history ≠ 0 then hp else .null) ∧
      e.add = (if sh.points = 3 then .null else ap) := by
  obtain ⟨k, hk⟩ : ∃ k, sh.n = k + 1 := ⟨sh.n - 1, by omega⟩
  unfold elements
  rw [hk, List.range_succ_eq_map, List.map_cons, pointLoop_ok sh hp ap 0 h3]
  refine ⟨_, _, rfl, ?_, ?_⟩
  · simp only [histAt, Nat.zero_mul, Nat.zero_add, plus_zero hp h1]
  · simp only [Nat.zero_mul, plus_zero ap h2]

theorem elements_get {sh : Shape} {hp ap : Ptr} {i : Nat} {e : ShellPtrs} (h3 : 3 ≤ sh.points)
    (h : (elements sh hp ap)[i]? = some e) : e = ⟨histAt sh hp i 0, histAt sh hp i 1, histAt sh hp i 2,
      if sh.points = 3 then .null else ap.plus (i * (sh.points - 3))⟩ := by
  unfold elements at h
  rw [List.getElem?_map] at h
  obtain ⟨j, hj, rfl⟩ := Option.map_eq_some_iff.1 h
  rw [List.getElem?_range (by
    have := (List.getElem?_eq_some_iff.1 hj).1
    simpa using this)] at hj
  cases hj
  exact pointLoop_ok sh hp ap i h3

theorem Shape.Ok.hist {sh : Shape} (h : sh.Ok) (h0 : sh.n ≠ 0) (thick : Bool) :
    (histBytes thick sh = 0 ↔ sh.history = 0) ∧ histBytes thick sh < 2 ^ 63 := by
  obtain ⟨h1, h2, h3, h4⟩ := h
  unfold histBytes
  cases thick
  · simp only [Bool.false_eq_true, if_false]
    constructor
    · simp only [Nat.mul_eq_zero]
      omega
    · have a1 := Nat.mul_le_mul h3 h2
      have a2 := Nat.mul_le_mul a1 (Nat.le_of_lt h4)
      omega
  · simp only [if_true]
    constructor
    · simp only [Nat.mul_eq_zero]
      omega
    · have a2 := Nat.mul_le_mul (Nat.mul_le_mul_right 3 (Nat.le_of_lt h4)) h3
      omega

theorem Shape.Ok.add {sh : Shape} (h : sh.Ok) (h0 : sh.n ≠ 0) :
    (addBytes sh = 0 ↔ sh.points - 3 = 0) ∧ addBytes sh < 2 ^ 63 := by
  obtain ⟨h1, h2, h3, h4⟩ := h
  obtain ⟨k, hk⟩ : ∃ k, sh.points = k + 3 := ⟨sh.points - 3, by omega⟩
  have e : addBytes sh = 64 * k * sh.n := by
    unfold addBytes toU64
    have : (64 * ((sh.points : Int) - 3) * sh.n) = ((64 * k * sh.n : Nat) : Int) := by
      rw [hk]; push_cast; congr 2; omega
    rw [this, ← Int.natCast_emod, Int.toNat_natCast]
    refine Nat.mod_eq_of_lt ?_
    have a1 : 64 * k * sh.n ≤ 64 * 255 * 2 ^ 40 :=
      Nat.mul_le_mul (Nat.mul_le_mul_left _ (by omega)) (Nat.le_of_lt h4)
    unfold u64
    omega
  rw [e]
  constructor
  · simp only [Nat.mul_eq_zero]
    omega
  · have a1 : 64 * k * sh.n ≤ 64 * 255 * 2 ^ 40 :=
      Nat.mul_le_mul (Nat.mul_le_mul_left _ (by omega)) (Nat.le_of_lt h4)
    omega

theorem blocks_ne {zero : Bool} {p : Ptr} {k : Nat} (h : p.blks.length = blocks zero k) (hk : k ≠ 0) : p ≠ .null := by
  intro e
  subst e
  unfold blocks at h
  rw [if_neg hk] at h
  cases h

/-- Auxiliary: a read of shells. -/
theorem readShells_ok (zero thick : Bool) {sh : Shape} (hsh : sh.Ok) (out : Outcome) {m : Mem} {L : List Nat}
    (h : Owns m L) : ∃ m' a leak, readShells zero thick sh out m = .ok (m', a) ∧
      Owns m' (a.blks ++ leak ++ L) ∧ leak.length = lost zero (.shells thick sh out) ∧
      (sh.n = 0 ∨ out ≠ .good → a = {}) ∧ (sh.n ≠ 0 → out = .good → Whole sh a) := by
  unfold readShells lost
  by_cases h0 : sh.n = 0
  · rw [if_pos h0]
    simp only [h0, if_true]
    exact ⟨m, {}, [], rfl, h, rfl, fun _ => rfl, fun e => absurd rfl e⟩
  rw [if_neg h0]
  simp only [if_neg h0]
  obtain ⟨a1, a2⟩ := malloc_ok (zero := zero) (n := histBytes thick sh) h
  have a3 := malloc_len (zero := zero) (m := m) (hsh.hist h0 thick).1 (hsh.hist h0 thick).2
  generalize malloc zero m (histBytes thick sh) = hh at a1 a2 a3 ⊢
  obtain ⟨m1, hp⟩ := hh
  simp only at a1 a2 a3 ⊢
  obtain ⟨b1, b2⟩ := malloc_ok (zero := zero) (n := addBytes sh) a1
  have b3 := malloc_len (zero := zero) (m := m1) (hsh.add h0).1 (hsh.add h0).2
  generalize malloc zero m1 (addBytes sh) = aa at b1 b2 b3 ⊢
  obtain ⟨m2, ap⟩ := aa
  simp only at b1 b2 b3 ⊢
  have c1 := alloc_ok b1
  have c2 := alloc_ok c1
  obtain ⟨m3, e3, d3⟩ := free_ok c2
  simp only [e3, Res.bind_ok]
  cases out with
  | failed =>
    obtain ⟨m4, e4, d4⟩ := free_ok d3
    simp only [e4, Res.bind_ok]
    unfold freeFailed
    by_cases hc : thick = false ∧ sh.wordSize = 4
    · rw [if_pos (by simp [hc.1, hc.2])]
      simp only [Res.bind_ok]
      refine ⟨m4, {}, hp.blks ++ ap.blks, rfl, d4.perm (by simp only [ShellArr.blks]; perms), ?_, fun _ => rfl,
        fun _ e => by cases e⟩
      rw [List.length_append, a3, b3, if_pos hc]
    · rw [if_neg (by
        intro e
        apply hc
        simpa using e)]
      obtain ⟨m5, e5, d5⟩ := freePtr_ok (L := ap.blks ++ L) a2 (d4.perm (by perms))
      obtain ⟨m6, e6, d6⟩ := freePtr_ok b2 d5
      simp only [e5, e6, Res.bind_ok]
      exact ⟨m6, {}, [], rfl, d6.perm (by simp only [ShellArr.blks]; perms), by rw [if_neg hc]; rfl, fun _ => rfl,
        fun _ e => by cases e⟩
  | unused =>
    obtain ⟨m4, e4, d4⟩ := free_ok d3
    obtain ⟨m5, e5, d5⟩ := freePtr_ok (L := ap.blks ++ L) a2 (d4.perm (by perms))
    obtain ⟨m6, e6, d6⟩ := freePtr_ok b2 d5
    simp only [e4, e5, e6, Res.bind_ok]
    exact ⟨m6, {}, [], rfl, d6.perm (by simp only [ShellArr.blks]; perms), rfl, fun _ => rfl,
        fun _ e => by cases e⟩
  | good =>
    obtain ⟨e, l, f1, f2, f3⟩ := elements_cons hp ap h0 hsh.1 a2 b2
    refine ⟨m3, ⟨some m2.alloc.2, elements sh hp ap⟩, (if sh.history = 0 then hp.blks else []) ++
      (if sh.points = 3 then ap.blks else []), rfl, d3.perm ?_, ?_, fun e => ?_, fun _ _ => ?_⟩
    · simp only [ShellArr.blks, f1, f2, f3, ne_eq, ite_not]
      by_cases g1 : sh.history = 0 <;> by_cases g2 : sh.points = 3 <;>
        simp only [g1, g2, if_true, if_false, Ptr.blks] <;> perms
    · simp only [List.length_append]
      congr 1
      · by_cases g1 : sh.history = 0
        · rw [if_pos g1, if_pos g1, a3]; unfold blocks; rw [if_pos g1]
        · rw [if_neg g1, if_neg g1]; rfl
      · by_cases g1 : sh.points = 3
        · rw [if_pos g1, if_pos g1, b3]; unfold blocks; rw [if_pos (by omega)]
        · rw [if_neg g1, if_neg g1]; rfl
    · rcases e with e | e
      · exact absurd e h0
      · exact absurd rfl e
    · exact ⟨_, hp, ap, rfl, a2, b2, fun g => blocks_ne a3 g, fun g => blocks_ne b3 (by have := hsh.1; omega)⟩

/-- Auxiliary: the release of shells. -/
theorem freeShells_ok {m : Mem} {a : ShellArr} {h : Nat} {L : List Nat} (hg : (Obj.shells a h).Good)
    (ho : Owns m (a.blks ++ L)) : ∃ m', freeShells m a = .ok m' ∧ Owns m' L := by
  rcases hg with rfl | ⟨sh, hsh, h0, _, b, hp, ap, rfl, h1, h2, _, _⟩
  · exact ⟨m, rfl, ho⟩
  · obtain ⟨e, l, f1, f2, f3⟩ := elements_cons hp ap h0 hsh.1 h1 h2
    unfold freeShells
    simp only [ShellArr.blks, f1, f2, f3] at ho ⊢
    rw [use_ok ho (by simp)]
    simp only [Res.bind_ok]
    obtain ⟨m1, e1, o1⟩ := freePtr_ok (p := if sh.history ≠ 0 then hp else .null)
      (L := (if sh.points = 3 then Ptr.null else ap).blks ++ (b :: L)) (by split; exact h1; exact .inl rfl)
      (ho.perm (by perms))
    obtain ⟨m2, e2, o2⟩ := freePtr_ok (p := if sh.points = 3 then .null else ap)
      (L := b :: L) (by split; exact .inl rfl; exact h2) o1
    obtain ⟨m3, e3, o3⟩ := free_ok o2
    simp only [e1, e2, e3, Res.bind_ok]
    exact ⟨m3, rfl, o3⟩

/-- Auxiliary: a read of beams; everything except the array is lost. -/
theorem readBeams_ok (zero : Bool) {sh : BeamShape} (hsh : sh.Ok) (out : Outcome) {m : Mem} {L : List Nat}
    (h : Owns m L) : ∃ m' a leak, readBeams zero sh out m = .ok (m', a) ∧
      Owns m' (a.blk.toList ++ leak ++ L) ∧ leak.length = lost zero (.beams sh out) ∧
      (sh.n = 0 ∨ out ≠ .good → a = {}) := by
  unfold readBeams lost
  by_cases h0 : sh.n = 0
  · rw [if_pos h0]
    simp only [h0, if_true]
    exact ⟨m, {}, [], rfl, h, rfl, fun _ => rfl⟩
  rw [if_neg h0]
  simp only [if_neg h0]
  obtain ⟨h1, h2, h3⟩ := hsh
  obtain ⟨a1, _⟩ := malloc_ok (zero := zero) (n := sh.n * sh.points * 48) h
  have a3 := malloc_len (zero := zero) (m := m) (n := sh.n * sh.points * 48) (k := sh.points)
    (by simp only [Nat.mul_eq_zero]; omega) (by
      have := Nat.mul_le_mul (Nat.le_of_lt h3) h1
      omega)
  generalize malloc zero m (sh.n * sh.points * 48) = pp at a1 a3 ⊢
  obtain ⟨m1, p⟩ := pp
  simp only at a1 a3 ⊢
  obtain ⟨b1, _⟩ := malloc_ok (zero := zero) (n := sh.n * sh.history * (3 + sh.points) * 8) a1
  have b3 := malloc_len (zero := zero) (m := m1) (n := sh.n * sh.history * (3 + sh.points) * 8) (k := sh.history)
    (by simp only [Nat.mul_eq_zero]; omega) (by
      have := Nat.mul_le_mul (Nat.mul_le_mul (Nat.le_of_lt h3) h2) (show 3 + sh.points ≤ 258 by omega)
      omega)
  generalize malloc zero m1 (sh.n * sh.history * (3 + sh.points) * 8) = hh at b1 b3 ⊢
  obtain ⟨m2, hp⟩ := hh
  simp only at b1 b3 ⊢
  have c1 := alloc_ok b1
  have c2 := alloc_ok c1
  obtain ⟨m3, e3, d3⟩ := free_ok c2
  simp only [e3, Res.bind_ok]
  cases out with
  | failed =>
    obtain ⟨m4, e4, d4⟩ := free_ok d3
    simp only [e4, Res.bind_ok]
    exact ⟨m4, {}, p.blks ++ hp.blks, rfl, d4.perm (by perms), by rw [List.length_append, a3, b3], fun _ => rfl⟩
  | unused =>
    obtain ⟨m4, e4, d4⟩ := free_ok d3
    simp only [e4, Res.bind_ok]
    exact ⟨m4, {}, p.blks ++ hp.blks, rfl, d4.perm (by perms), by rw [List.length_append, a3, b3], fun _ => rfl⟩
  | good =>
    refine ⟨m3, _, p.blks ++ hp.blks, rfl, d3.perm (by perms), by rw [List.length_append, a3, b3], fun e => ?_⟩
    rcases e with e | e
    · exact absurd e h0
    · exact absurd rfl e

/-! ## Programs -/

/-- Auxiliary: the state of a program that has lost the blocks `leak`. -/
def Inv (base : List Nat) (s : St) (leak : List Nat) : Prop :=
  Owns s.mem (objBlks s.objs ++ leak ++ base) ∧ ∀ o, some o ∈ s.objs → o.Good

theorem objBlks_add (objs : List (Option Obj)) (o : Obj) : objBlks (objs ++ [some o]) = objBlks objs ++ o.blks := by
  unfold objBlks
  rw [List.flatMap_append, List.flatMap_singleton]

theorem objBlks_set : ∀ (objs : List (Option Obj)) (x : Nat) (o : Obj), objs[x]? = some (some o) →
    (objBlks objs).Perm (o.blks ++ objBlks (objs.set x none))
  | [], _, _, h => by cases h
  | a :: l, 0, o, h => by
    simp only [List.getElem?_cons_zero, Option.some.injEq] at h
    subst h
    simp only [objBlks, List.set_cons_zero, List.flatMap_cons, List.nil_append]
    exact List.Perm.refl _
  | a :: l, x + 1, o, h => by
    rw [List.getElem?_cons_succ] at h
    have ih := objBlks_set l x o h
    simp only [objBlks, List.set_cons_succ, List.flatMap_cons] at ih ⊢
    have := List.Perm.append_left (match a with | none => [] | some o => o.blks) ih
    refine this.trans ?_
    perms

theorem Inv.new {base leak : List Nat} {s : St} (h : Inv base s leak) {m : Mem} {o : Obj} {more : List Nat}
    (hm : Owns m (o.blks ++ more ++ (objBlks s.objs ++ leak ++ base))) (ho : o.Good) :
    Inv base (s.add m o) (more ++ leak) := by
  refine ⟨?_, fun o' h' => ?_⟩
  · simp only [St.add, objBlks_add]
    exact hm.perm (by perms)
  · simp only [St.add, List.mem_append, List.mem_singleton, Option.some.injEq] at h'
    rcases h' with h' | rfl
    · exact h.2 o' h'
    · exact ho

theorem obj_ok {s : St} {x : Nat} {o : Obj} (h : s.obj x = .ok o) : s.objs[x]? = some (some o) := by
  unfold St.obj at h
  split at h
  · rename_i o' e
    cases h
    exact e
  · cases h

theorem obj_cases (s : St) (x : Nat) : (∃ o, s.obj x = .ok o) ∨ s.obj x = .err := by
  unfold St.obj
  split
  · exact .inl ⟨_, rfl⟩
  · exact .inr rfl

theorem usePtr_ok {m : Mem} {L : List Nat} {p : Ptr} {b off : Nat} (h : Owns m L) (hb : b ∈ L) (hp : p = .at b off) :
    usePtr m p = .ok () := by
  subst hp
  exact use_ok h hb

theorem meanOf_ok {m : Mem} {a : ShellArr} {h i : Nat} {L : List Nat} (hg : (Obj.shells a h).Good)
    (ho : Owns m (a.blks ++ L)) : meanOf m a h i = .err ∨
      ∃ m' p, meanOf m a h i = .ok (m', p) ∧ Owns m' (p.blks ++ (a.blks ++ L)) ∧ p.Start := by
  rcases hg with rfl | ⟨sh, hsh, h0, rfl, b, hp, ap, rfl, h1, h2, h3, h4⟩
  · left; rfl
  unfold meanOf
  cases hi : (elements sh hp ap)[i]? with
  | none => left; rfl
  | some e =>
    right
    have he := elements_get hsh.1 hi
    obtain ⟨e0, l, f1, f2, f3⟩ := elements_cons hp ap h0 hsh.1 h1 h2
    simp only
    rw [use_ok ho (by simp [ShellArr.blks])]
    simp only [Res.bind_ok]
    by_cases hh : sh.history = 0
    · rw [if_pos hh]
      exact ⟨m, .null, rfl, ho, .inl rfl⟩
    · rw [if_neg hh]
      obtain ⟨q, rfl⟩ : ∃ q, hp = .at q 0 := h1.resolve_left (h3 hh)
      have hq : q ∈ (ShellArr.mk (some b) (elements sh (.at q 0) ap)).blks ++ L := by
        simp [ShellArr.blks, f1, f2, hh, Ptr.blks]
      have u : ∀ j, usePtr m (histAt sh (.at q 0) i j) = .ok () := by
        intro j
        refine usePtr_ok ho hq (off := 0 + (i * sh.points * sh.history + j * sh.history)) ?_
        simp only [histAt, ne_eq, hh, not_false_eq_true, if_true, Ptr.plus]
      have ua : useAdd m e.add = .ok () := by
        rw [he]
        unfold useAdd
        by_cases g : sh.points = 3
        · simp only [g, if_true]
        · obtain ⟨r, rfl⟩ : ∃ r, ap = .at r 0 := h2.resolve_left (h4 g)
          have hr : r ∈ (ShellArr.mk (some b) (elements sh (.at q 0) (.at r 0))).blks ++ L := by
            simp [ShellArr.blks, f1, f3, g, Ptr.blks]
          simp only [g, if_false]
          rw [if_neg (by simp [Ptr.plus])]
          exact usePtr_ok ho hr rfl
      rw [ua, he]
      simp only [u, Res.bind_ok]
      exact ⟨_, _, rfl, alloc_ok ho, .inr ⟨_, rfl⟩⟩

theorem step_ok (zero : Bool) {base leak : List Nat} {s : St} (h : Inv base s leak) {c : Cmd} (hc : c.Ok) :
    s.step zero c = .err ∨ ∃ s' more, s.step zero c = .ok s' ∧ Inv base s' (more ++ leak) ∧
      more.length = lost zero c := by
  cases c with
  | shells thick sh out =>
    right
    obtain ⟨m', a, more, e1, e2, e3, e4, e5⟩ := readShells_ok zero thick hc out h.1
    simp only [St.step, e1, Res.bind_ok]
    by_cases g : sh.n = 0 ∨ out = .good
    · rw [if_pos g]
      refine ⟨_, more, rfl, h.new e2 ?_, e3⟩
      by_cases g0 : sh.n = 0
      · exact .inl (e4 (.inl g0))
      · exact .inr ⟨sh, hc, g0, rfl, e5 g0 (g.resolve_left g0)⟩
    · rw [if_neg g]
      refine ⟨_, more, rfl, ⟨?_, h.2⟩, e3⟩
      have := e4 (.inr (fun x => g (.inr x)))
      subst this
      exact e2.perm (by simp only [ShellArr.blks]; perms)
  | beams sh out =>
    right
    obtain ⟨m', a, more, e1, e2, e3, e4⟩ := readBeams_ok zero hc out h.1
    simp only [St.step, e1, Res.bind_ok]
    by_cases g : sh.n = 0 ∨ out = .good
    · rw [if_pos g]
      exact ⟨_, more, rfl, h.new e2 trivial, e3⟩
    · rw [if_neg g]
      refine ⟨_, more, rfl, ⟨?_, h.2⟩, e3⟩
      have := e4 (.inr (fun x => g (.inr x)))
      subst this
      exact e2.perm (by perms)
  | copy x => cases hc
  | mean x i =>
    simp only [St.step]
    rcases obj_cases s x with ⟨o, ho⟩ | ho
    · have hx := obj_ok ho
      have hp := objBlks_set _ _ _ hx
      have hg := h.2 o (List.mem_of_getElem? hx)
      rw [ho]
      simp only [Res.bind_ok]
      cases o with
      | shells a hh =>
        have ho' : Owns s.mem (a.blks ++ (objBlks (s.objs.set x none) ++ leak ++ base)) :=
          h.1.perm (by
            have := List.Perm.append_right (leak ++ base) hp
            simpa [Obj.blks, List.append_assoc] using this)
        rcases meanOf_ok (i := i) hg ho' with e | ⟨m', p, e1, e2, e3⟩
        · left; simp only [e]; rfl
        · right
          simp only [e1, Res.bind_ok]
          refine ⟨_, [], rfl, h.new (o := .mean p) (more := []) ?_ e3, rfl⟩
          refine e2.perm ?_
          have := List.Perm.append_right (leak ++ base) hp.symm
          simp only [Obj.blks, List.append_nil, List.append_assoc] at this ⊢
          exact List.Perm.append_left _ this
      | beams a => left; rfl
      | mean p => left; rfl
    · left; rw [ho]; rfl
  | drop x =>
    simp only [St.step]
    rcases obj_cases s x with ⟨o, ho⟩ | ho
    · right
      have hx := obj_ok ho
      have hp := objBlks_set _ _ _ hx
      have hg := h.2 o (List.mem_of_getElem? hx)
      have ho' : Owns s.mem (o.blks ++ (objBlks (s.objs.set x none) ++ leak ++ base)) :=
        h.1.perm (by
          have := List.Perm.append_right (leak ++ base) hp
          simpa [List.append_assoc] using this)
      have hd : ∃ m', dropObj s.mem o = .ok m' ∧ Owns m' (objBlks (s.objs.set x none) ++ leak ++ base) := by
        cases o with
        | shells a hh => exact freeShells_ok hg ho'
        | beams a => exact freeOpt_ok ho'
        | mean p => exact freePtr_ok hg ho'
      obtain ⟨m', e1, e2⟩ := hd
      rw [ho]
      simp only [Res.bind_ok, e1]
      refine ⟨_, [], rfl, ⟨e2, fun o' h' => h.2 o' ?_⟩, rfl⟩
      rcases List.mem_or_eq_of_mem_set h' with h' | h'
      · exact h'
      · cases h'
    · left; rw [ho]; rfl

theorem run_ok (zero : Bool) {base : List Nat} : ∀ {cs : List Cmd} {s : St} {leak : List Nat}, Inv base s leak →
    (∀ c ∈ cs, c.Ok) → s.run zero cs = .err ∨ ∃ s' more, s.run zero cs = .ok s' ∧ Inv base s' (more ++ leak) ∧
      more.length = lostAll zero cs
  | [], s, _, h, _ => .inr ⟨s, [], rfl, h, rfl⟩
  | c :: cs, s, leak, h, hc => by
    rw [St.run]
    rcases step_ok zero h (hc c (by simp)) with e | ⟨s1, more, e, h1, l1⟩
    · left; rw [e]; rfl
    · rw [e]
      simp only [Res.bind_ok]
      rcases run_ok zero (cs := cs) h1 (fun c h => hc c (List.mem_cons_of_mem _ h)) with e | ⟨s2, more2, e, h2, l2⟩
      · exact .inl e
      · refine .inr ⟨s2, more2 ++ more, e, by rw [List.append_assoc]; exact h2, ?_⟩
        rw [List.length_append, l1, l2]
        simp [lostAll]
        omega

/-- C87: programs that read states of shells, thick shells and beams in C++ with accepted control data, get means of
elements and destroy objects in any order, but copy nothing. Nothing is used or released after it has been released
(a program ends with `err` only where an exception is thrown or an object does not exist). At all times exactly the
blocks of the objects, `lostAll` further blocks and what was allocated before are allocated. What is missing: the
property wants `lostAll` to be 0; see `lost` and `c87_lost_each_read` for the operations that lose blocks, and `c87_copy` for copies. -/
theorem c87_programs_partial (zero : Bool) (m : Mem) (cs : List Cmd) (hc : ∀ c ∈ cs, c.Ok) :
    St.run zero { mem := m } cs = .err ∨
    ∃ s leak, St.run zero { mem := m } cs = .ok s ∧ leak.length = lostAll zero cs ∧
      Owns s.mem (objBlks s.objs ++ leak ++ m.live) := by
  rcases run_ok zero (base := m.live) (s := { mem := m }) (leak := []) ⟨List.Perm.refl _, fun o h => by cases h⟩ hc with
    e | ⟨s, leak, e, h, l⟩
  · exact .inl e
  · exact .inr ⟨s, leak, e, l, by rw [List.append_nil] at h; exact h.1⟩

/-- C87 in C: a state of shells or thick shells is released completely by `d3plot_free_shells_state` or
`d3plot_free_thick_shells_state`, up to blocks of size 0 that the library allocates although they are not needed. -/
theorem c87_c_shells_partial (zero thick : Bool) (sh : Shape) (hsh : sh.Ok) (m : Mem) :
    ∃ m1 a m2 leak, readShells zero thick sh .good m = .ok (m1, a) ∧ a.elems.length = sh.n ∧ freeShells m1 a = .ok m2 ∧
      leak.length = lost zero (.shells thick sh .good) ∧ Owns m2 (leak ++ m.live) := by
  obtain ⟨m1, a, leak, e1, e2, e3, e4, e5⟩ := readShells_ok zero thick hsh .good (List.Perm.refl m.live)
  have hg : (Obj.shells a sh.history).Good := by
    by_cases h0 : sh.n = 0
    · exact .inl (e4 (.inl h0))
    · exact .inr ⟨sh, hsh, h0, rfl, e5 h0 rfl⟩
  obtain ⟨m2, f1, f2⟩ := freeShells_ok (L := leak ++ m.live) hg (e2.perm (by perms))
  refine ⟨m1, a, m2, leak, e1, ?_, f1, e3, f2⟩
  by_cases h0 : sh.n = 0
  · rw [e4 (.inl h0), h0]; rfl
  · obtain ⟨b, hp, ap, rfl, _⟩ := (e5 h0 rfl).ex
    simp [elements]

/-- C87 in C: `d3plot_free_beams_state` releases a state of beams with integration points completely. -/
theorem c87_c_beams (zero : Bool) (sh : BeamShape) (hsh : sh.Ok) (hp : sh.n = 0 ∨ sh.points ≠ 0) (m : Mem) :
    ∃ m1 a m2, readBeams zero sh .good m = .ok (m1, a) ∧ a.ips.length = sh.n ∧ freeBeams m1 a = .ok m2 ∧
      Owns m2 m.live := by
  unfold readBeams
  by_cases h0 : sh.n = 0
  · rw [if_pos h0]
    exact ⟨m, {}, m, rfl, h0.symm, rfl, List.Perm.refl _⟩
  rw [if_neg h0]
  simp only
  obtain ⟨h1, h2, h3⟩ := hsh
  have hq := hp.resolve_left h0
  have hb : sh.n * sh.points * 48 < 2 ^ 63 := by
    have := Nat.mul_le_mul (Nat.le_of_lt h3) h1
    omega
  have hb0 : sh.n * sh.points * 48 ≠ 0 := by
    simp only [ne_eq, Nat.mul_eq_zero]; omega
  obtain ⟨a1, a2⟩ := malloc_ok (zero := zero) (n := sh.n * sh.points * 48) (List.Perm.refl m.live)
  have a3 := malloc_pos (zero := zero) (m := m) hb0 hb
  generalize malloc zero m (sh.n * sh.points * 48) = pp at a1 a2 a3 ⊢
  obtain ⟨m1, p⟩ := pp
  simp only at a1 a2 a3 ⊢
  subst a3
  obtain ⟨b1, b2⟩ := malloc_ok (zero := zero) (n := sh.n * sh.history * (3 + sh.points) * 8) a1
  generalize malloc zero m1 (sh.n * sh.history * (3 + sh.points) * 8) = hh at b1 b2 ⊢
  obtain ⟨m2, hp⟩ := hh
  simp only at b1 b2 ⊢
  have c1 := alloc_ok b1
  obtain ⟨m3, e3, d3⟩ := free_ok (alloc_ok c1)
  simp only [e3, Res.bind_ok]
  obtain ⟨k, hk⟩ : ∃ k, sh.n = k + 1 := ⟨sh.n - 1, by omega⟩
  have f1 : (List.range sh.n).map (fun i => (Ptr.at m.alloc.2 0).plus (i * sh.points)) =
      .at m.alloc.2 0 :: ((List.range k).map Nat.succ).map (fun i => (Ptr.at m.alloc.2 0).plus (i * sh.points)) := by
    rw [hk, List.range_succ_eq_map, List.map_cons]
    simp [Ptr.plus]
  have f2 : ((List.range (sh.n * sh.points)).map (beamPoint sh hp))[0]? = some hp := by
    rw [List.getElem?_map, List.getElem?_range (Nat.pos_of_ne_zero (by simp only [ne_eq, Nat.mul_eq_zero]; omega))]
    simp only [Option.map_some, beamPoint, Nat.zero_mul, plus_zero hp b2]
    split
    · rename_i e; rw [e]
    · rfl
  obtain ⟨m4, e4, d4⟩ := freePtr_ok (L := m2.alloc.2 :: (Ptr.at m.alloc.2 0).blks ++ m.live) b2 (d3.perm (by perms))
  obtain ⟨m5, e5, d5⟩ := freePtr_ok (p := .at m.alloc.2 0) (L := m2.alloc.2 :: m.live) (.inr ⟨_, rfl⟩)
    (d4.perm (by perms))
  obtain ⟨m6, e6, d6⟩ := free_ok d5
  refine ⟨m3, _, m6, rfl, by simp, ?_, d6⟩
  unfold freeBeams
  simp only [f1]
  rw [use_ok d3 (by simp), use_ok d3 (by simp [Ptr.blks])]
  simp only [Res.bind_ok, f2, e4, e5, e6]

/-- C87 is violated: without integration points (BEAMIP = 0) `d3plot_free_beams_state` reads the first one. -/
theorem c87_c_beams_no_points (sh : BeamShape) (h0 : sh.n ≠ 0) (hp : sh.points = 0) (m : Mem) :
    ∃ m1 a, readBeams true sh .good m = .ok (m1, a) ∧ freeBeams m1 a = .ub := by
  unfold readBeams
  rw [if_neg h0]
  have a1 : malloc true m (sh.n * sh.points * 48) = (m.alloc.1, .at m.alloc.2 0) := by
    unfold malloc
    rw [if_pos (by rw [hp]; simp)]
    rfl
  obtain ⟨b1, b2⟩ := malloc_ok (zero := true) (n := sh.n * sh.history * (3 + sh.points) * 8)
    (alloc_ok (List.Perm.refl m.live))
  simp only [a1]
  generalize malloc true m.alloc.1 (sh.n * sh.history * (3 + sh.points) * 8) = hh at b1 b2 ⊢
  obtain ⟨m2, q⟩ := hh
  simp only at b1 b2 ⊢
  obtain ⟨m3, e3, d3⟩ := free_ok (alloc_ok (alloc_ok b1))
  simp only [e3, Res.bind_ok]
  refine ⟨m3, _, rfl, ?_⟩
  obtain ⟨k, hk⟩ : ∃ k, sh.n = k + 1 := ⟨sh.n - 1, by omega⟩
  have f1 : (List.range sh.n).map (fun i => (Ptr.at m.alloc.2 0).plus (i * sh.points)) =
      .at m.alloc.2 0 :: ((List.range k).map Nat.succ).map (fun i => (Ptr.at m.alloc.2 0).plus (i * sh.points)) := by
    rw [hk, List.range_succ_eq_map, List.map_cons]
    simp [Ptr.plus]
  unfold freeBeams
  simp only [f1]
  rw [use_ok d3 (by simp), use_ok d3 (by simp)]
  simp only [Res.bind_ok, hp, Nat.mul_zero, List.range_zero, List.map_nil, List.getElem?_nil]

/-- C87 is violated: without integration points and with a `malloc` that returns null for an empty block, the
history variables of the beams are never released; everything else is. -/
theorem c87_c_beams_no_points_null (sh : BeamShape) (hsh : sh.Ok) (h0 : sh.n ≠ 0) (hp : sh.points = 0) (m : Mem) :
    ∃ m1 a m2 leak, readBeams false sh .good m = .ok (m1, a) ∧ freeBeams m1 a = .ok m2 ∧
      Owns m2 (leak ++ m.live) ∧ leak.length = (if sh.history = 0 then 0 else 1) := by
  unfold readBeams
  rw [if_neg h0]
  have a1 : malloc false m (sh.n * sh.points * 48) = (m, .null) := by
    unfold malloc
    rw [if_pos (by rw [hp]; simp)]
    rfl
  have a2 : ∃ m2 q leak, malloc false m (sh.n * sh.history * (3 + sh.points) * 8) = (m2, q) ∧ Owns m2 (leak ++ m.live) ∧
      leak.length = (if sh.history = 0 then 0 else 1) := by
    unfold malloc
    by_cases hh : sh.history = 0
    · rw [if_pos (by rw [hh]; simp), if_pos hh]
      exact ⟨_, _, [], rfl, List.Perm.refl _, rfl⟩
    · have h1 : sh.n * sh.history ≠ 0 := Nat.mul_ne_zero h0 hh
      have h2 : sh.n * sh.history ≤ 2 ^ 40 * 255 := Nat.mul_le_mul (Nat.le_of_lt hsh.2.2) hsh.2.1
      rw [hp]
      rw [if_neg (by omega), if_pos (by omega), if_neg hh]
      exact ⟨_, _, [_], rfl, alloc_ok (List.Perm.refl m.live), rfl⟩
  obtain ⟨m2, q, leak, e2, b1, b2⟩ := a2
  simp only [a1, e2]
  obtain ⟨m3, e3, d3⟩ := free_ok (alloc_ok (alloc_ok b1))
  simp only [e3, Res.bind_ok]
  obtain ⟨m4, e4, d4⟩ := free_ok d3
  refine ⟨m3, _, m4, leak, rfl, ?_, d4, b2⟩
  obtain ⟨k, hk⟩ : ∃ k, sh.n = k + 1 := ⟨sh.n - 1, by omega⟩
  have f1 : (List.range sh.n).map (fun i => (Ptr.null).plus (i * sh.points)) =
      .null :: ((List.range k).map Nat.succ).map (fun i => (Ptr.null).plus (i * sh.points)) := by
    rw [hk, List.range_succ_eq_map, List.map_cons]
    simp [Ptr.plus]
  unfold freeBeams
  simp only [f1]
  rw [use_ok d3 (by simp)]
  simp only [Res.bind_ok, e4]

/-- C87 is violated: without integration points (MAXINT = 0) a pointer that has not been set is released. -/
theorem c87_c_shells_no_points (zero thick : Bool) (sh : Shape) (h0 : sh.n ≠ 0) (hp : sh.points = 0) (m : Mem) :
    ∃ m1 a, readShells zero thick sh .good m = .ok (m1, a) ∧ freeShells m1 a = .ub := by
  unfold readShells
  rw [if_neg h0]
  obtain ⟨a1, _⟩ := malloc_ok (zero := zero) (n := histBytes thick sh) (List.Perm.refl m.live)
  generalize malloc zero m (histBytes thick sh) = hh at a1 ⊢
  obtain ⟨m1, hq⟩ := hh
  simp only at a1 ⊢
  obtain ⟨b1, _⟩ := malloc_ok (zero := zero) (n := addBytes sh) a1
  generalize malloc zero m1 (addBytes sh) = aa at b1 ⊢
  obtain ⟨m2, ap⟩ := aa
  simp only at b1 ⊢
  obtain ⟨m3, e3, d3⟩ := free_ok (alloc_ok (alloc_ok b1))
  simp only [e3, Res.bind_ok]
  refine ⟨m3, _, rfl, ?_⟩
  obtain ⟨k, hk⟩ : ∃ k, sh.n = k + 1 := ⟨sh.n - 1, by omega⟩
  have f1 : elements sh hq ap = {} :: ((List.range k).map Nat.succ).map (fun _ => {}) := by
    unfold elements
    rw [hk, List.range_succ_eq_map, List.map_cons, hp]
    rfl
  unfold freeShells
  simp only [f1]
  rw [use_ok d3 (by simp)]
  rfl

/-- C87 is violated in most databases: with three integration points and without history variables every read of
shells or thick shells loses two blocks if `malloc(0)` is not null. -/
theorem c87_lost_each_read (thick : Bool) (sh : Shape) (h0 : sh.n ≠ 0) (h1 : sh.points = 3) (h2 : sh.history = 0) :
    sh.Ok → lost true (.shells thick sh .good) = 2 := by
  intro _
  simp [lost, h0, h1, h2]

/-- C87: when nothing is lost. -/
theorem c87_lost_nothing (zero thick : Bool) (sh : Shape)
    (h : sh.n = 0 ∨ zero = false ∨ (sh.history ≠ 0 ∧ sh.points ≠ 3)) : lost zero (.shells thick sh .good) = 0 := by
  rcases h with h | h | ⟨h1, h2⟩
  · simp [lost, h]
  · subst h; simp [lost]
  · simp [lost, h1, h2]

theorem malloc_some {zero : Bool} {m : Mem} {n : Nat} (h0 : n ≠ 0) (h1 : n < 2 ^ 63) :
    malloc zero m n = (⟨m.next + 1, m.next :: m.live⟩, .at m.next 0) := by
  unfold malloc
  rw [if_neg h0, if_pos h1]
  rfl

theorem malloc_true {m : Mem} {n : Nat} (h0 : n = 0) :
    malloc true m n = (⟨m.next + 1, m.next :: m.live⟩, .at m.next 0) := by
  unfold malloc
  rw [if_pos h0]
  rfl

theorem malloc_false {m : Mem} {n : Nat} (h0 : n = 0) : malloc false m n = (m, .null) := by
  unfold malloc
  rw [if_pos h0]
  rfl

theorem elements_head {sh : Shape} (h0 : sh.n ≠ 0) (h3 : 3 ≤ sh.points) (hp ap : Ptr) (h1 : hp.Start) (h2 : ap.Start) :
    ∃ l, elements sh hp ap =
      ⟨if sh.history ≠ 0 then hp else .null, histAt sh hp 0 1, histAt sh hp 0 2,
        if sh.points = 3 then .null else ap⟩ :: l := by
  obtain ⟨k, hk⟩ : ∃ k, sh.n = k + 1 := ⟨sh.n - 1, by omega⟩
  refine ⟨((List.range k).map Nat.succ).map (fun i => pointLoop sh hp ap i sh.points 0 {}), ?_⟩
  unfold elements
  rw [hk, List.range_succ_eq_map, List.map_cons, pointLoop_ok sh hp ap 0 h3]
  simp only [histAt, Nat.zero_mul, Nat.zero_add, plus_zero hp h1, plus_zero ap h2]

/-- C87 is violated: two C++ arrays of which one is a copy of the other can both be destroyed only if there are no
history variables and no additional integration points; otherwise the second destructor releases them again. -/
theorem c87_copy (zero thick : Bool) (sh : Shape) (hsh : sh.Ok) (h0 : sh.n ≠ 0) :
    St.run zero {} [.shells thick sh .good, .copy 0, .drop 0, .drop 1] = .ub ↔ (sh.history ≠ 0 ∨ sh.points ≠ 3) := by
  have hh := hsh.hist h0 thick
  have ha := hsh.add h0
  obtain ⟨h3, _⟩ := hsh
  have n1 : (Ptr.null).Start := .inl rfl
  have n2 : ∀ b, (Ptr.at b 0).Start := fun b => .inr ⟨b, rfl⟩
  by_cases g1 : sh.history = 0 <;> by_cases g2 : sh.points = 3
  · have b1 := hh.1.2 g1
    have b2 := ha.1.2 (by omega)
    cases zero
    · obtain ⟨l, e⟩ := elements_head h0 h3 .null .null n1 n1
      simp [St.run, St.step, readShells, h0, malloc_false b1, malloc_false b2, e, Mem.alloc, Mem.free, St.add, St.obj,
        copyObj, copyBlk, dropObj, freeShells, freePtr, Mem.use, g1, g2]
    · obtain ⟨l, e⟩ := elements_head h0 h3 (.at 0 0) (.at 1 0) (n2 _) (n2 _)
      simp [St.run, St.step, readShells, h0, malloc_true b1, malloc_true b2, e, Mem.alloc, Mem.free, St.add, St.obj,
        copyObj, copyBlk, dropObj, freeShells, freePtr, Mem.use, g1, g2]
  · have b1 := hh.1.2 g1
    have b2 : addBytes sh ≠ 0 := fun h => by have := ha.1.1 h; omega
    have b3 := ha.2
    cases zero
    · obtain ⟨l, e⟩ := elements_head h0 h3 .null (.at 0 0) n1 (n2 _)
      simp [St.run, St.step, readShells, h0, malloc_false b1, malloc_some b2 b3, e, Mem.alloc, Mem.free, St.add, St.obj,
        copyObj, copyBlk, dropObj, freeShells, freePtr, Mem.use, g1, g2]
    · obtain ⟨l, e⟩ := elements_head h0 h3 (.at 0 0) (.at 1 0) (n2 _) (n2 _)
      simp [St.run, St.step, readShells, h0, malloc_true b1, malloc_some b2 b3, e, Mem.alloc, Mem.free, St.add, St.obj,
        copyObj, copyBlk, dropObj, freeShells, freePtr, Mem.use, g1, g2]
  · have b1 : histBytes thick sh ≠ 0 := fun h => g1 (hh.1.1 h)
    have b2 := ha.1.2 (by omega)
    have b3 := hh.2
    cases zero
    · obtain ⟨l, e⟩ := elements_head h0 h3 (.at 0 0) .null (n2 _) n1
      simp [St.run, St.step, readShells, h0, malloc_some b1 b3, malloc_false b2, e, Mem.alloc, Mem.free, St.add, St.obj,
        copyObj, copyBlk, dropObj, freeShells, freePtr, Mem.use, g1, g2]
    · obtain ⟨l, e⟩ := elements_head h0 h3 (.at 0 0) (.at 1 0) (n2 _) (n2 _)
      simp [St.run, St.step, readShells, h0, malloc_some b1 b3, malloc_true b2, e, Mem.alloc, Mem.free, St.add, St.obj,
        copyObj, copyBlk, dropObj, freeShells, freePtr, Mem.use, g1, g2]
  · have b1 : histBytes thick sh ≠ 0 := fun h => g1 (hh.1.1 h)
    have b2 : addBytes sh ≠ 0 := fun h => by have := ha.1.1 h; omega
    have b3 := hh.2
    have b4 := ha.2
    obtain ⟨l, e⟩ := elements_head h0 h3 (.at 0 0) (.at 1 0) (n2 _) (n2 _)
    simp [St.run, St.step, readShells, h0, malloc_some b1 b3, malloc_some b2 b4, e, Mem.alloc, Mem.free, St.add, St.obj,
      copyObj, copyBlk, dropObj, freeShells, freePtr, Mem.use, g1, g2]

/-- C87 is violated: the copy of an array without elements reads its first element when it is destroyed, if
`malloc(0)` is not null. -/
theorem c87_empty_copy (thick : Bool) (sh : Shape) (h0 : sh.n = 0) (out : Outcome) :
    St.run true {} [.shells thick sh out, .copy 0, .drop 1] = .ub := by
  simp [St.run, St.step, readShells, h0, Mem.alloc, St.add, St.obj, copyObj, copyBlk, dropObj, freeShells, Mem.use]

/-- C87 is violated: the mean of an element and its copy release the same history variables. -/
theorem c87_mean_copy (zero thick : Bool) (sh : Shape) (hsh : sh.Ok) (h0 : sh.n ≠ 0) (h1 : sh.history ≠ 0) :
    St.run zero {} [.shells thick sh .good, .mean 0 0, .copy 1, .drop 1, .drop 2] = .ub := by
  have hh := hsh.hist h0 thick
  have ha := hsh.add h0
  obtain ⟨h3, _⟩ := hsh
  have n1 : (Ptr.null).Start := .inl rfl
  have n2 : ∀ b, (Ptr.at b 0).Start := fun b => .inr ⟨b, rfl⟩
  have b1 : histBytes thick sh ≠ 0 := fun h => h1 (hh.1.1 h)
  have b3 := hh.2
  by_cases g2 : sh.points = 3
  · have b2 := ha.1.2 (by omega)
    cases zero
    · obtain ⟨l, e⟩ := elements_head h0 h3 (.at 0 0) .null (n2 _) n1
      simp [St.run, St.step, readShells, h0, malloc_some b1 b3, malloc_false b2, e, Mem.alloc, Mem.free, St.add, St.obj,
        copyObj, dropObj, freePtr, Mem.use, h1, g2, meanOf, usePtr, useAdd, histAt, Ptr.plus]
    · obtain ⟨l, e⟩ := elements_head h0 h3 (.at 0 0) (.at 1 0) (n2 _) (n2 _)
      simp [St.run, St.step, readShells, h0, malloc_some b1 b3, malloc_true b2, e, Mem.alloc, Mem.free, St.add, St.obj,
        copyObj, dropObj, freePtr, Mem.use, h1, g2, meanOf, usePtr, useAdd, histAt, Ptr.plus]
  · have b2 : addBytes sh ≠ 0 := fun h => by have := ha.1.1 h; omega
    have b4 := ha.2
    obtain ⟨l, e⟩ := elements_head h0 h3 (.at 0 0) (.at 1 0) (n2 _) (n2 _)
    simp [St.run, St.step, readShells, h0, malloc_some b1 b3, malloc_some b2 b4, e, Mem.alloc, Mem.free, St.add, St.obj,
      copyObj, dropObj, freePtr, Mem.use, h1, g2, meanOf, usePtr, useAdd, histAt, Ptr.plus]

/-- The mean of an element stays usable when the array is destroyed first; everything is released. -/
example : St.run true {} [.shells true ⟨4, 3, 5, 2⟩ .good, .beams ⟨2, 4, 0⟩ .good, .mean 0 2, .drop 0, .drop 2, .drop 1] =
    .ok ⟨⟨9, [5, 4]⟩, [none, none, none]⟩ := by decide +kernel

example : lostAll true [.shells true ⟨4, 3, 5, 2⟩ .good, .beams ⟨2, 4, 0⟩ .good, .mean 0 2, .drop 0, .drop 2, .drop 1] = 2 := by
  decide +kernel

/-- Shells with additional integration points and history variables meet the hypotheses. -/
example : (⟨4, 3, 5, 2⟩ : Shape).Ok := by unfold Shape.Ok; decide

end Dyna.StateMem
