import Verif.BinoutMem
import Verif.Props.KeyMem
import Verif.DirectoryLemmas
import Verif.Props.Binout
/-!
# C88: opening and closing binouts releases what it allocates
-/

namespace Dyna.BinoutMem

open Dyna.KeyMem

/-! ## The heap -/

/-- Specification: exactly the blocks `L` are allocated, and `D` are blocks that have been released. -/
structure Heap (m : Mem) (L D : List Nat) : Prop where
  own : m.live.Perm L
  nodup : L.Nodup
  lt : ∀ x ∈ L, x < m.next
  gone : ∀ d ∈ D, d < m.next ∧ d ∉ L

theorem Heap.perm {m : Mem} {L L' D : List Nat} (h : Heap m L D) (p : L.Perm L') : Heap m L' D :=
  ⟨h.own.trans p, p.nodup_iff.1 h.nodup, fun x hx => h.lt x (p.mem_iff.2 hx),
    fun d hd => ⟨(h.gone d hd).1, fun hm => (h.gone d hd).2 (p.mem_iff.2 hm)⟩⟩

theorem Heap.sub {m : Mem} {L D D' : List Nat} (h : Heap m L D) (p : ∀ d ∈ D', d ∈ D) : Heap m L D' :=
  ⟨h.own, h.nodup, h.lt, fun d hd => h.gone d (p d hd)⟩

theorem Heap.alloc {m : Mem} {L D : List Nat} (h : Heap m L D) : Heap m.alloc.1 (m.alloc.2 :: L) D := by
  refine ⟨alloc_ok h.own, ?_, ?_, ?_⟩
  · rw [List.nodup_cons]
    refine ⟨fun hm => ?_, h.nodup⟩
    have := h.lt _ hm
    simp [Mem.alloc] at this
  · intro x hx
    rcases List.mem_cons.1 hx with e | hm
    · subst e; exact Nat.lt_succ_self m.next
    · exact Nat.lt_succ_of_lt (h.lt x hm)
  · intro d hd
    obtain ⟨h1, h2⟩ := h.gone d hd
    refine ⟨Nat.lt_succ_of_lt h1, fun hm => ?_⟩
    rcases List.mem_cons.1 hm with e | hm
    · subst e; exact absurd h1 (Nat.lt_irrefl m.next)
    · exact h2 hm

theorem Heap.free {m : Mem} {b : Nat} {L D : List Nat} (h : Heap m (b :: L) D) :
    ∃ m', m.free b = .ok m' ∧ Heap m' L (b :: D) := by
  have hm : b ∈ m.live := h.own.mem_iff.2 (by simp)
  have hn := List.nodup_cons.1 h.nodup
  refine ⟨{ m with live := m.live.erase b }, by unfold Mem.free; rw [if_pos hm], ?_, hn.2, ?_, ?_⟩
  · have := List.Perm.erase b h.own
    rwa [List.erase_cons_head] at this
  · exact fun x hx => h.lt x (List.mem_cons_of_mem _ hx)
  · intro d hd
    rcases List.mem_cons.1 hd with e | hd
    · subst e; exact ⟨h.lt d (by simp), hn.1⟩
    · exact ⟨(h.gone d hd).1, fun hx => (h.gone d hd).2 (List.mem_cons_of_mem _ hx)⟩

theorem Heap.free' {m : Mem} {b : Nat} {L D : List Nat} (h : Heap m (b :: L) D) :
    ∃ m', m.free b = .ok m' ∧ Heap m' L D := by
  obtain ⟨m', e, h⟩ := h.free
  exact ⟨m', e, h.sub (by simp +contextual)⟩

theorem Heap.free_gone {m : Mem} {b : Nat} {L D : List Nat} (h : Heap m L D) (hb : b ∈ D) : m.free b = .ub := by
  unfold Mem.free
  rw [if_neg (fun hm => (h.gone b hb).2 (h.own.mem_iff.1 hm))]

theorem Heap.freeOpt {m : Mem} {o : Option Nat} {L D : List Nat} (h : Heap m (o.toList ++ L) D) :
    ∃ m', m.freeOpt o = .ok m' ∧ Heap m' L D := by
  cases o with
  | none => exact ⟨m, rfl, h⟩
  | some b => exact h.free'

theorem Heap.use {m : Mem} {b : Nat} {L D : List Nat} (h : Heap m L D) (hb : b ∈ L) : m.use b = .ok () := by
  unfold Mem.use
  rw [if_pos (h.own.mem_iff.2 hb)]

theorem Heap.realloc {m : Mem} {o : Option Nat} {L D : List Nat} (h : Heap m (o.toList ++ L) D) :
    ∃ m' b, m.realloc o = .ok (m', b) ∧ Heap m' (b :: L) D := by
  obtain ⟨m', e, h⟩ := h.freeOpt
  refine ⟨m'.alloc.1, m'.alloc.2, ?_, h.alloc⟩
  unfold Mem.realloc
  rw [e]
  rfl

theorem Heap.freeAll {m : Mem} {l L D : List Nat} (h : Heap m (l ++ L) D) :
    ∃ m', m.freeAll l = .ok m' ∧ Heap m' L D := by
  induction l generalizing m with
  | nil => exact ⟨m, rfl, h⟩
  | cons b l ih =>
    obtain ⟨m', e, h⟩ := h.free'
    obtain ⟨m2, e2, h2⟩ := ih h
    exact ⟨m2, by unfold Mem.freeAll; rw [e]; exact e2, h2⟩

theorem Heap.live_iff {m : Mem} {L D : List Nat} (h : Heap m L D) (b : Nat) : b ∈ m.live ↔ b ∈ L := h.own.mem_iff

/-! ## Specification: the tree without its blocks, and the blocks of a tree -/

mutual
/-- Specification: the blocks of an entry: its name and its children. -/
def blks : EntryM → List Nat
  | .file _ nb _ => [nb]
  | .folder _ nb fr blk kids => (if fr then [] else [nb]) ++ (blk.toList ++ blksL kids)
/-- Specification: the blocks of the entries of an array. -/
def blksL : List EntryM → List Nat
  | [] => []
  | e :: l => blks e ++ blksL l
end

mutual
/-- Specification: the names of an entry that have been released and are still pointed to. -/
def dang : EntryM → List Nat
  | .file _ _ _ => []
  | .folder _ nb fr _ kids => (if fr then [nb] else []) ++ dangL kids
/-- Specification: the names that have been released and are still pointed to. -/
def dangL : List EntryM → List Nat
  | [] => []
  | e :: l => dang e ++ dangL l
end

/-- Specification: the blocks of an array and its entries. -/
def tree (blk : Option Nat) (kids : List EntryM) : List Nat := blk.toList ++ blksL kids

theorem eraseL_eq (l : List EntryM) : eraseL l = l.map erase := by
  induction l with
  | nil => rfl
  | cons e l ih => simp [eraseL, ih]

theorem erase_name (e : EntryM) : (erase e).name = e.name := by cases e <;> simp [erase, Entry.name, EntryM.name]

theorem blksL_append (l1 l2 : List EntryM) : blksL (l1 ++ l2) = blksL l1 ++ blksL l2 := by
  induction l1 with
  | nil => rfl
  | cons e l ih => simp [blksL, ih]

theorem dangL_append (l1 l2 : List EntryM) : dangL (l1 ++ l2) = dangL l1 ++ dangL l2 := by
  induction l1 with
  | nil => rfl
  | cons e l ih => simp [dangL, ih]

theorem mem_blksL {l : List EntryM} {e : EntryM} (h : e ∈ l) {b : Nat} (hb : b ∈ blks e) : b ∈ blksL l := by
  induction l with
  | nil => cases h
  | cons x l ih =>
    rcases List.mem_cons.1 h with e1 | h
    · subst e1; simp [blksL, hb]
    · simp [blksL, ih h]

theorem mem_dangL {l : List EntryM} {e : EntryM} (h : e ∈ l) {b : Nat} (hb : b ∈ dang e) : b ∈ dangL l := by
  induction l with
  | nil => cases h
  | cons x l ih =>
    rcases List.mem_cons.1 h with e1 | h
    · subst e1; simp [dangL, hb]
    · simp [dangL, ih h]

theorem blks_folder (n : Bytes) (nb : Nat) (fr : Bool) (blk : Option Nat) (kids : List EntryM) :
    blks (.folder n nb fr blk kids) = (if fr then [] else [nb]) ++ tree blk kids := by simp [blks, tree]

/-- Directories as they are built: sorted, and the array is null exactly if it is empty. -/
inductive Ok : Option Nat → List EntryM → Prop
  | mk (blk : Option Nat) (kids : List EntryM) (null : kids = [] ↔ blk = none)
      (sorted : kids.Pairwise (fun a b => LexLt a.name b.name))
      (sub : ∀ n nb fr b ch, EntryM.folder n nb fr b ch ∈ kids → Ok b ch) : Ok blk kids

theorem Ok.null {blk kids} (h : Ok blk kids) : kids = [] ↔ blk = none := by cases h; assumption
theorem Ok.sorted {blk kids} (h : Ok blk kids) : kids.Pairwise (fun a b => LexLt a.name b.name) := by cases h; assumption
theorem Ok.sub {blk kids} (h : Ok blk kids) {n nb fr b ch} (hm : EntryM.folder n nb fr b ch ∈ kids) : Ok b ch := by
  cases h with | mk _ _ _ _ s => exact s _ _ _ _ _ hm
theorem Ok.nil : Ok none [] := ⟨none, [], by simp, .nil, by simp⟩

theorem Ok.sortedE {blk kids} (h : Ok blk kids) : (eraseL kids).Pairwise (fun a b => LexLt a.name b.name) := by
  rw [eraseL_eq, List.pairwise_map]
  simpa only [erase_name] using h.sorted

/-! ## Searching -/

theorem names_ok {m : Mem} {L D : List Nat} {kids : List EntryM} (h : Heap m L D) (h1 : ∀ b ∈ blksL kids, b ∈ L)
    (h2 : ∀ b ∈ dangL kids, b ∈ D) {e : EntryM} (he : e ∈ kids) : (erase e).nameOk = decide (e.nb ∈ m.live) := by
  cases e with
  | file n nb i =>
    have : nb ∈ L := h1 _ (mem_blksL he (by simp [blks]))
    simp [erase, Entry.nameOk, EntryM.nb, h.live_iff, this]
  | folder n nb fr blk ch =>
    cases fr with
    | false =>
      have : nb ∈ L := h1 _ (mem_blksL he (by simp [blks]))
      simp [erase, Entry.nameOk, EntryM.nb, h.live_iff, this]
    | true =>
      have : nb ∈ D := h2 _ (mem_dangL he (by simp [dang]))
      simp [erase, Entry.nameOk, EntryM.nb, h.live_iff, (h.gone nb this).2]

theorem searchM_eq {m : Mem} {L D : List Nat} {blk : Option Nat} {kids : List EntryM} (hk : Ok blk kids) (h : Heap m L D)
    (h1 : ∀ b ∈ tree blk kids, b ∈ L) (h2 : ∀ b ∈ dangL kids, b ∈ D) (value : Bytes) :
    searchM m value blk kids = searchInsert value (eraseL kids) := by
  unfold searchM searchInsert
  have hl : (eraseL kids).length = kids.length := by rw [eraseL_eq, List.length_map]
  rw [hl]
  by_cases h0 : kids.length = 0
  · rw [if_pos h0, if_pos h0]
  · rw [if_neg h0, if_neg h0]
    obtain ⟨b, rfl⟩ : ∃ b, blk = some b := by
      cases blk with
      | none => exact absurd (by rw [hk.null.2 rfl]; rfl) h0
      | some b => exact ⟨b, rfl⟩
    have hu : useArr m (some b) = .ok () := h.use (h1 b (by simp [tree]))
    rw [hu]
    have hc : cmpM m value kids = cmpInsert value (eraseL kids) := by
      funext i
      unfold cmpM cmpInsert
      rw [eraseL_eq, List.getElem?_map]
      cases he : kids[i]? with
      | none => rfl
      | some e =>
        have := names_ok h (fun b hb => h1 b (by simp [tree, hb])) h2 (List.mem_of_getElem? he)
        simp only [Option.map_some, this, erase_name, decide_eq_true_eq]
    rw [hc]
    rfl

theorem bsearchInsert_found (cmp : Nat → Option Int) (s e i : Nat) (h : bsearchInsert cmp s e = .ok (true, i)) :
    cmp i = some 0 := by
  induction hn : e - s using Nat.strongRecOn generalizing s e with
  | ind n ih =>
  rw [bsearchInsert] at h
  by_cases hEq : s = e
  · rw [if_pos hEq] at h
    cases hc : cmp s with
    | none => rw [hc] at h; cases h
    | some c =>
      rw [hc] at h
      dsimp only at h
      split at h
      · rename_i h0
        cases h; rw [hc, h0]
      · split at h <;> cases h
  · rw [if_neg hEq] at h
    by_cases hlt : e < s
    · rw [dif_pos hlt] at h; cases h
    · rw [dif_neg hlt] at h
      dsimp only at h
      cases hc : cmp (s + (e - s) / 2) with
      | none => rw [hc] at h; cases h
      | some c =>
        rw [hc] at h
        dsimp only at h
        split at h
        · exact ih _ (by omega) _ _ h rfl
        · split at h
          · split at h
            · exact ih _ (by omega) _ _ h rfl
            · exact ih _ (by omega) _ _ h rfl
          · have : c = 0 := by omega
            cases h; rw [hc, this]

theorem searchInsert_found {kids : List Entry} {value : Bytes} {i : Nat} {e : Entry}
    (h : searchInsert value kids = .ok (true, i)) (he : kids[i]? = some e) : e.nameOk = true := by
  unfold searchInsert at h
  split at h
  · cases h
  · have := bsearchInsert_found _ _ _ _ h
    unfold cmpInsert at this
    rw [he] at this
    dsimp only at this
    split at this
    · assumption
    · cases this

/-- What a search finds. -/
inductive Found (kids : List EntryM) (value : Bytes) : Res (Bool × Nat) → Prop
  | ub : Found kids value .ub
  | found (l1 l2 : List EntryM) (e : EntryM) (hk : kids = l1 ++ e :: l2) (hn : e.name = value)
      (ok : (erase e).nameOk = true) : Found kids value (.ok (true, l1.length))
  | new (l1 l2 : List EntryM) (hk : kids = l1 ++ l2) (h1 : ∀ e ∈ l1, LexLt e.name value)
      (h2 : ∀ e ∈ l2, LexLt value e.name) : Found kids value (.ok (false, l1.length))

theorem search_found {blk : Option Nat} {kids : List EntryM} (hk : Ok blk kids) (value : Bytes) :
    Found kids value (searchInsert value (eraseL kids)) := by
  rcases searchInsert_spec' value hk.sortedE with h | ⟨i, e, h, he, hn⟩ | ⟨i, h, hi, h1, h2⟩
  · rw [h]; exact .ub
  · rw [h]
    rw [eraseL_eq, List.getElem?_map] at he
    cases hx : kids[i]? with
    | none => rw [hx] at he; cases he
    | some x =>
      rw [hx] at he
      cases he
      have ok := searchInsert_found (e := erase x) h (by rw [eraseL_eq, List.getElem?_map, hx]; rfl)
      obtain ⟨hlt, hget⟩ := List.getElem?_eq_some_iff.1 hx
      have hl : (kids.take i).length = i := by rw [List.length_take]; omega
      have : kids = kids.take i ++ x :: kids.drop (i + 1) := by
        rw [← hget, List.getElem_cons_drop, List.take_append_drop]
      have f := Found.found (kids := kids) (value := value) (kids.take i) (kids.drop (i + 1)) x this
        (by rw [← erase_name]; exact hn) ok
      rwa [hl] at f
  · rw [h]
    rw [eraseL_eq, List.length_map] at hi
    have hl : (kids.take i).length = i := by rw [List.length_take]; omega
    have f := Found.new (kids := kids) (value := value) (kids.take i) (kids.drop i) (List.take_append_drop i kids).symm
      (fun e he => by
        have := h1 (erase e) (by rw [eraseL_eq, ← List.map_take]; exact List.mem_map_of_mem he)
        rwa [erase_name] at this)
      (fun e he => by
        have := h2 (erase e) (by rw [eraseL_eq, ← List.map_drop]; exact List.mem_map_of_mem he)
        rwa [erase_name] at this)
    rwa [hl] at f

/-! ## Results that agree -/

/-- Specification: both succeed with related results, or both fail in the same way. -/
inductive Rel {α β : Type} (R : α → β → Prop) : Res α → Res β → Prop
  | ok {a : α} {b : β} (h : R a b) : Rel R (.ok a) (.ok b)
  | ub : Rel R .ub .ub
  | err : Rel R .err .err
  | abort : Rel R .abort .abort

theorem Rel.bind {α β γ δ : Type} {R : α → β → Prop} {S : γ → δ → Prop} {x : Res α} {y : Res β} {f : α → Res γ}
    {g : β → Res δ} (h : Rel R x y) (hf : ∀ a b, R a b → Rel S (f a) (g b)) : Rel S (x >>= f) (y >>= g) := by
  cases h with
  | ok h => exact hf _ _ h
  | ub => exact .ub
  | err => exact .err
  | abort => exact .abort

theorem Rel.self {α : Type} (x : Res α) : Rel (fun a b => a = b ∧ x = .ok a) x x := by
  cases x with
  | ok a => exact .ok ⟨rfl, rfl⟩
  | ub => exact .ub
  | err => exact .err
  | abort => exact .abort

/-! ## Arrays with one entry changed -/

theorem get_mid {α : Type} (l1 l2 : List α) (e : α) : (l1 ++ e :: l2)[l1.length]? = some e := by simp

theorem set_mid {α : Type} (l1 l2 : List α) (e x : α) : (l1 ++ e :: l2).set l1.length x = l1 ++ x :: l2 := by simp

theorem eraseL_append (l1 l2 : List EntryM) : eraseL (l1 ++ l2) = eraseL l1 ++ eraseL l2 := by
  simp [eraseL_eq]

theorem eraseL_len (l : List EntryM) : (eraseL l).length = l.length := by simp [eraseL_eq]

theorem insertAtM_mid (l1 l2 : List EntryM) (e : EntryM) : insertAtM (l1 ++ l2) l1.length e = l1 ++ e :: l2 := by
  simp [insertAtM]

theorem insertAt_mid (l1 l2 : List Entry) (e : Entry) : insertAt (l1 ++ l2) l1.length e = l1 ++ e :: l2 := by
  simp [insertAt]

/-- The children of an entry. -/
def SubOk (e : EntryM) : Prop := ∀ n nb fr b ch, e = .folder n nb fr b ch → Ok b ch

theorem Ok.set {blk : Option Nat} {l1 l2 : List EntryM} {e e' : EntryM} (h : Ok blk (l1 ++ e :: l2)) (hn : e'.name = e.name)
    (hs : SubOk e') : Ok blk (l1 ++ e' :: l2) := by
  refine ⟨_, _, ?_, ?_, ?_⟩
  · have := h.null
    simpa using this
  · have := h.sorted
    rw [List.pairwise_append, List.pairwise_cons] at this ⊢
    obtain ⟨a, ⟨b, c⟩, d⟩ := this
    refine ⟨a, ⟨fun x hx => by rw [hn]; exact b x hx, c⟩, fun x hx y hy => ?_⟩
    rcases List.mem_cons.1 hy with rfl | hy
    · rw [hn]; exact d x hx e (by simp)
    · exact d x hx y (by simp [hy])
  · intro n nb fr b ch hm
    rcases List.mem_append.1 hm with hm | hm
    · exact h.sub (List.mem_append_left _ hm)
    · rcases List.mem_cons.1 hm with hm | hm
      · exact hs n nb fr b ch hm.symm
      · exact h.sub (List.mem_append_right _ (List.mem_cons_of_mem _ hm))

theorem Ok.insert {blk : Option Nat} {l1 l2 : List EntryM} {e : EntryM} (h : Ok blk (l1 ++ l2)) (g : Nat)
    (h1 : ∀ x ∈ l1, LexLt x.name e.name) (h2 : ∀ x ∈ l2, LexLt e.name x.name) (hs : SubOk e) :
    Ok (some g) (l1 ++ e :: l2) := by
  refine ⟨_, _, by simp, ?_, ?_⟩
  · have := h.sorted
    rw [List.pairwise_append] at this ⊢
    obtain ⟨a, b, c⟩ := this
    refine ⟨a, List.pairwise_cons.2 ⟨h2, b⟩, fun x hx y hy => ?_⟩
    rcases List.mem_cons.1 hy with rfl | hy
    · exact h1 x hx
    · exact c x hx y hy
  · intro n nb fr b ch hm
    rcases List.mem_append.1 hm with hm | hm
    · exact h.sub (List.mem_append_left _ hm)
    · rcases List.mem_cons.1 hm with hm | hm
      · exact hs n nb fr b ch hm.symm
      · exact h.sub (List.mem_append_right _ hm)

theorem lexLt_ne {a b : Bytes} (h : LexLt a b) : a ≠ b := by
  intro e
  subst e
  exact LexLt.irrefl a h

/-- The entry of a name in a sorted array. -/
theorem find_mid {blk : Option Nat} {l1 l2 : List EntryM} {e : EntryM} (h : Ok blk (l1 ++ e :: l2)) :
    findM (l1 ++ e :: l2) e.name = some e := by
  have := h.sorted
  rw [List.pairwise_append] at this
  unfold findM
  rw [List.find?_append, List.find?_eq_none.2 (fun x hx => by
    have := lexLt_ne (this.2.2 x hx e (by simp)); simpa using this)]
  simp

theorem find_split {blk : Option Nat} {kids : List EntryM} {n : Bytes} {e : EntryM} (h : Ok blk kids)
    (hf : findM kids n = some e) : ∃ l1 l2, kids = l1 ++ e :: l2 ∧ e.name = n ∧
      ∀ x, replaceM kids n x = l1 ++ x :: l2 := by
  unfold findM at hf
  obtain ⟨h1, l1, l2, h2, h3⟩ := List.find?_eq_some_iff_append.1 hf
  have hn : e.name = n := by simpa using h1
  refine ⟨l1, l2, h2, hn, fun x => ?_⟩
  subst h2
  have hs := h.sorted
  rw [List.pairwise_append, List.pairwise_cons] at hs
  unfold replaceM
  rw [List.map_append, List.map_cons, if_pos hn]
  congr 1
  · conv => rhs; rw [← List.map_id l1]
    refine List.map_congr_left (fun y hy => ?_)
    rw [if_neg (by simpa using h3 y hy)]
    rfl
  · congr 1
    conv => rhs; rw [← List.map_id l2]
    refine List.map_congr_left (fun y hy => ?_)
    have := lexLt_ne (hs.2.1.1 y hy)
    rw [if_neg (fun e1 => this (by rw [hn, e1]))]
    rfl

theorem findEntry_eq (kids : List EntryM) (n : Bytes) : findEntry (eraseL kids) n = (findM kids n).map erase := by
  unfold findEntry findM
  rw [eraseL_eq, List.find?_map]
  congr 2
  funext e
  simp [erase_name]

theorem replaceEntry_eq (kids : List EntryM) (n : Bytes) (x : EntryM) :
    replaceEntry (eraseL kids) n (erase x) = eraseL (replaceM kids n x) := by
  unfold replaceEntry replaceM
  rw [eraseL_eq, eraseL_eq, List.map_map, List.map_map]
  refine List.map_congr_left (fun e _ => ?_)
  simp only [Function.comp, erase_name]
  split <;> rfl

/-- The block of the array in which the folder of a path is. -/
def arrOf (blk : Option Nat) (kids : List EntryM) : List Bytes → Option Nat
  | [] => none
  | c :: cs =>
    match findM kids c with
    | some (.folder _ _ _ b ch) => if cs = [] then blk else arrOf b ch cs
    | _ => none

/-! ## Folders -/

/-- What an insertion of folders gives. -/
structure FolderOk (F D : List Nat) (n : Nat) (path : List Bytes) (ptr : Option Nat) (r : FolderRes)
    (p : List Entry × Bool) : Prop where
  kids : eraseL r.kids = p.1
  ok : Ok r.blk r.kids
  heap : Heap r.mem (tree r.blk r.kids ++ F) (dangL r.kids ++ D)
  dangs : (dangL r.kids).length = n
  found : (path ≠ [] ∨ ptr.isSome = true) → p.2 = r.ptr.isSome
  found0 : path = [] → r.ptr = ptr
  arr : path ≠ [] → ∀ q, r.ptr = some q → arrOf r.blk r.kids path = some q

theorem searchPathM_ok {m : Mem} {F D : List Nat} {blk : Option Nat} {kids : List EntryM} (hk : Ok blk kids)
    (h : Heap m (tree blk kids ++ F) (dangL kids ++ D)) (value : Bytes) :
    (searchPathM m value blk kids = .ub ∧ searchInsert value (eraseL kids) = .ub) ∨
    (∃ m' r, searchPathM m value blk kids = .ok (m', r) ∧ searchInsert value (eraseL kids) = .ok r ∧
      Heap m' (tree blk kids ++ F) (dangL kids ++ D)) := by
  unfold searchPathM
  by_cases h0 : kids.length = 0
  · rw [if_pos h0]
    refine .inr ⟨m, (false, 0), rfl, ?_, h⟩
    unfold searchInsert
    rw [eraseL_len, if_pos h0]
  · rw [if_neg h0]
    dsimp only
    rw [searchM_eq hk h.alloc (fun b hb => by simp [hb]) (fun b hb => by simp [hb])]
    have := search_found hk value
    generalize searchInsert value (eraseL kids) = r at this
    cases this with
    | ub => exact .inl ⟨rfl, rfl⟩
    | found l1 l2 e hk hn ok =>
      obtain ⟨m', e, h'⟩ := h.alloc.free'
      exact .inr ⟨m', _, by simp only [Res.bind_ok, e], rfl, h'⟩
    | new l1 l2 hk h1 h2 =>
      obtain ⟨m', e, h'⟩ := h.alloc.free'
      exact .inr ⟨m', _, by simp only [Res.bind_ok, e], rfl, h'⟩

theorem blksL_mid (l1 l2 : List EntryM) (e : EntryM) : blksL (l1 ++ e :: l2) = blksL l1 ++ (blks e ++ blksL l2) := by
  rw [blksL_append]; rfl

theorem dangL_mid (l1 l2 : List EntryM) (e : EntryM) : dangL (l1 ++ e :: l2) = dangL l1 ++ (dang e ++ dangL l2) := by
  rw [dangL_append]; rfl

theorem eraseL_mid (l1 l2 : List EntryM) (e : EntryM) : eraseL (l1 ++ e :: l2) = eraseL l1 ++ erase e :: eraseL l2 := by
  rw [eraseL_append]; rfl

theorem insertFolderM_ok (path : List Bytes) : ∀ (ptr : Option Nat) (m : Mem) (blk : Option Nat) (kids : List EntryM)
    (F D : List Nat), Ok blk kids → Heap m (tree blk kids ++ F) (dangL kids ++ D) →
    Rel (FolderOk F D (dangL kids).length path ptr) (insertFolderM ptr m blk kids path) (insertFolder (eraseL kids) path) := by
  induction path with
  | nil =>
    intro ptr m blk kids F D hk h
    unfold insertFolderM insertFolder
    refine .ok ⟨rfl, hk, h, rfl, ?_, fun _ => rfl, fun h => absurd rfl h⟩
    intro h
    rcases h with h | h
    · exact absurd rfl h
    · exact h.symm
  | cons name rest ih =>
    intro ptr m blk kids F D hk h
    unfold insertFolderM insertFolder
    rcases searchPathM_ok hk h name with ⟨e1, e2⟩ | ⟨m1, r, e1, e2, h1⟩
    · rw [e1, e2]; exact .ub
    · have hf := search_found hk name
      rw [e2] at hf
      rw [e1, e2]
      simp only [Res.bind_ok]
      cases hf with
      | found l1 l2 e hke hn ok =>
        subst hke
        simp only [if_true, get_mid, eraseL_mid]
        rw [← eraseL_len l1, get_mid]
        cases e with
        | file a b c =>
          simp only [erase]
          refine .ok ⟨by simp [eraseL_mid, erase], hk, h1, rfl, fun _ => rfl, fun h => (nomatch h), fun _ q hq => by cases hq⟩
        | folder n nb fr b ch =>
          simp only [erase]
          have hc : Ok b ch := hk.sub (n := n) (nb := nb) (fr := fr) (by simp)
          have h2 : Heap m1 (tree b ch ++ (blk.toList ++ blksL l1 ++ (if fr then [] else [nb]) ++ blksL l2 ++ F))
              (dangL ch ++ (dangL l1 ++ (if fr then [nb] else []) ++ dangL l2 ++ D)) := by
            refine (h1.perm ?_).sub ?_
            · rw [tree, blksL_mid, blks_folder]
              perms
            · intro d hd
              rw [dangL_mid]
              simp only [dang, List.mem_append] at hd ⊢
              rcases hd with hd | ((hd | hd) | hd) | hd <;> simp [hd]
          refine (ih blk m1 b ch _ _ hc h2).bind ?_
          intro r q hr
          refine .ok ⟨?_, ?_, ?_, ?_, ?_, fun h => (nomatch h), ?_⟩
          · rw [eraseL_len, set_mid, eraseL_mid, ← eraseL_len l1, set_mid, erase, hr.kids]
          · rw [eraseL_len, set_mid]
            refine hk.set rfl ?_
            intro _ _ _ _ _ e
            cases e
            exact hr.ok
          · rw [eraseL_len, set_mid]
            refine (hr.heap.perm ?_).sub ?_
            · rw [tree, tree, blksL_mid, blks_folder, tree]
              perms
            · intro d hd
              rw [dangL_mid] at hd
              simp only [dang, List.mem_append] at hd ⊢
              rcases hd with (hd | (hd | hd) | hd) | hd <;> simp [hd]
          · rw [eraseL_len, set_mid, dangL_mid, dangL_mid]
            have := hr.dangs
            simp only [dang, List.length_append] at this ⊢
            omega
          · intro _
            refine hr.found (.inr ?_)
            cases blk with
            | none => exact absurd (hk.null.2 rfl) (by simp)
            | some _ => rfl
          · intro _ q hq
            rw [eraseL_len, set_mid]
            have hk2 : Ok blk (l1 ++ EntryM.folder n nb fr r.blk r.kids :: l2) :=
              hk.set rfl (fun _ _ _ _ _ e => by cases e; exact hr.ok)
            have hf := find_mid hk2
            have hn' : (EntryM.folder n nb fr r.blk r.kids).name = name := hn
            rw [hn'] at hf
            unfold arrOf
            rw [hf]
            dsimp only
            by_cases hre : rest = []
            · rw [if_pos hre]
              subst hre
              have := hr.found0 rfl
              rw [← hq, this]
            · rw [if_neg hre]
              exact hr.arr hre q hq
      | new l1 l2 hke g1 g2 =>
        subst hke
        simp only [Bool.false_eq_true, if_false, eraseL_append]
        have h2 : Heap m1 (blk.toList ++ (blksL l1 ++ blksL l2 ++ F)) (dangL (l1 ++ l2) ++ D) := by
          refine h1.perm ?_
          rw [tree, blksL_append]
          perms
        obtain ⟨m2, g, e3, h3⟩ := h2.realloc
        rw [e3]
        simp only [Res.bind_ok]
        have h4 : Heap m2.alloc.1 (tree none [] ++ (m2.alloc.2 :: g :: (blksL l1 ++ blksL l2 ++ F)))
            (dangL [] ++ (dangL (l1 ++ l2) ++ D)) := by
          refine h3.alloc.perm ?_
          simp only [tree, blksL]
          perms
        refine (ih (some g) m2.alloc.1 none [] _ _ Ok.nil h4).bind ?_
        intro r q hr
        have hd0 : dangL r.kids = [] := List.length_eq_zero_iff.1 (by have := hr.dangs; simpa [dangL] using this)
        have hk2 : Ok (some g) (l1 ++ EntryM.folder name m2.alloc.2 false r.blk r.kids :: l2) :=
          hk.insert g g1 g2 (fun _ _ _ _ _ e => by cases e; exact hr.ok)
        refine .ok ⟨?_, ?_, ?_, ?_, ?_, fun h => (nomatch h), ?_⟩
        · rw [insertAtM_mid, eraseL_mid, ← eraseL_len l1, insertAt_mid, erase, hr.kids]
        · rw [insertAtM_mid]
          exact hk2
        · rw [insertAtM_mid]
          refine (hr.heap.perm ?_).sub ?_
          · rw [tree, tree, blksL_mid, blks_folder, tree]
            simp only [Bool.false_eq_true, if_false]
            perms
          · intro d hd
            rw [dangL_mid] at hd
            rw [dangL_append]
            simp only [dang, List.mem_append, Bool.false_eq_true, if_false, List.nil_append] at hd ⊢
            rcases hd with (hd | hd | hd) | hd <;> simp [hd]
        · rw [insertAtM_mid, dangL_mid, dangL_append]
          simp [dang, hd0]
        · intro _
          exact hr.found (.inr rfl)
        · intro _ q hq
          rw [insertAtM_mid]
          have hf := find_mid hk2
          have hn' : (EntryM.folder name m2.alloc.2 false r.blk r.kids).name = name := rfl
          rw [hn'] at hf
          unfold arrOf
          rw [hf]
          dsimp only
          by_cases hre : rest = []
          · rw [if_pos hre]
            subst hre
            have := hr.found0 rfl
            rw [← hq, this]
          · rw [if_neg hre]
            exact hr.arr hre q hq

/-! ## Variables -/

/-- What the insertion of a variable gives; every folder whose name is released costs one block. -/
structure FileOk (F D : List Nat) (n : Nat) (r : FileRes) (p : List Entry) (leak : List Nat) : Prop where
  kids : eraseL r.kids = p
  ok : Ok r.blk r.kids
  heap : Heap r.mem (tree r.blk r.kids ++ (leak ++ F)) (dangL r.kids ++ D)
  dangs : (dangL r.kids).length = n + leak.length

theorem insertFileM_ok {m : Mem} {blk : Option Nat} {kids : List EntryM} {nb : Nat} {F D : List Nat} (name : Bytes)
    (info : FileInfo) (hk : Ok blk kids) (h : Heap m (nb :: (tree blk kids ++ F)) (dangL kids ++ D)) :
    Rel (fun r p => ∃ leak, FileOk F D (dangL kids).length r p leak) (insertFileM m blk kids name nb info)
      (insertFile (eraseL kids) name info) := by
  unfold insertFileM insertFile
  rw [searchM_eq hk h (fun b hb => by simp [hb]) (fun b hb => by simp [hb])]
  have hf := search_found hk name
  generalize searchInsert name (eraseL kids) = sr at hf
  cases hf with
  | ub => exact .ub
  | found l1 l2 e hke hn ok =>
    subst hke
    simp only [Res.bind_ok, if_true, get_mid, eraseL_mid]
    rw [← eraseL_len l1, get_mid]
    cases e with
    | file a b c =>
      have h2 : Heap m (b :: (nb :: (blk.toList ++ blksL l1 ++ blksL l2 ++ F))) (dangL (l1 ++ EntryM.file a b c :: l2) ++ D) := by
        refine h.perm ?_
        rw [tree, blksL_mid, blks]
        perms
      obtain ⟨m1, e1, h1⟩ := h2.free'
      simp only [EntryM.nb, e1, Res.bind_ok, overwrite, erase]
      refine .ok ⟨[], ?_, ?_, ?_, ?_⟩
      · rw [eraseL_len, set_mid, eraseL_mid, ← eraseL_len l1, set_mid, erase]
      · rw [eraseL_len, set_mid]
        exact hk.set hn.symm (fun _ _ _ _ _ e => by cases e)
      · rw [eraseL_len, set_mid]
        refine (h1.perm ?_).sub ?_
        · rw [tree, blksL_mid, blks]
          perms
        · rw [dangL_mid, dangL_mid, dang, dang]
          exact fun d hd => hd
      · rw [eraseL_len, set_mid, dangL_mid, dangL_mid, dang, dang]
        rfl
    | folder n b fr bl ch =>
      have hfr : fr = false := by
        cases fr with
        | false => rfl
        | true => simp [erase, Entry.nameOk] at ok
      subst hfr
      have h2 : Heap m (b :: (nb :: (blk.toList ++ blksL l1 ++ tree bl ch ++ blksL l2 ++ F)))
          (dangL (l1 ++ EntryM.folder n b false bl ch :: l2) ++ D) := by
        refine h.perm ?_
        rw [tree, blksL_mid, blks_folder]
        simp only [Bool.false_eq_true, if_false]
        perms
      obtain ⟨m1, e1, h1⟩ := h2.free
      simp only [EntryM.nb, e1, Res.bind_ok, overwrite, erase]
      refine .ok ⟨[nb], ?_, ?_, ?_, ?_⟩
      · rw [eraseL_len, set_mid, eraseL_mid, ← eraseL_len l1, set_mid, erase]
      · rw [eraseL_len, set_mid]
        refine hk.set rfl ?_
        intro _ _ _ _ _ e
        cases e
        exact hk.sub (n := n) (nb := b) (fr := false) (by simp)
      · rw [eraseL_len, set_mid]
        refine (h1.perm ?_).sub ?_
        · simp only [tree]
          rw [blksL_mid, blks_folder, tree]
          simp only [if_true]
          perms
        · rw [dangL_mid, dangL_mid, dang, dang]
          intro d hd
          simp only [if_true, List.mem_append, List.mem_cons, List.not_mem_nil, or_false, Bool.false_eq_true, if_false] at hd ⊢
          rcases hd with (hd | (hd | hd) | hd) | hd <;> simp [hd]
      · rw [eraseL_len, set_mid, dangL_mid, dangL_mid, dang, dang]
        simp
        omega
  | new l1 l2 hke g1 g2 =>
    subst hke
    simp only [Res.bind_ok, Bool.false_eq_true, if_false, eraseL_append]
    have h2 : Heap m (blk.toList ++ (nb :: (blksL l1 ++ blksL l2 ++ F))) (dangL (l1 ++ l2) ++ D) := by
      refine h.perm ?_
      rw [tree, blksL_append]
      perms
    obtain ⟨m2, g, e3, h3⟩ := h2.realloc
    rw [e3]
    simp only [Res.bind_ok]
    refine .ok ⟨[], ?_, ?_, ?_, ?_⟩
    · rw [insertAtM_mid, eraseL_mid, ← eraseL_len l1, insertAt_mid, erase]
    · rw [insertAtM_mid]
      exact hk.insert g g1 g2 (fun _ _ _ _ _ e => by cases e)
    · rw [insertAtM_mid]
      refine (h3.perm ?_).sub ?_
      · rw [tree, blksL_mid, blks]
        perms
      · rw [dangL_mid, dangL_append, dang]
        exact fun d hd => hd
    · rw [insertAtM_mid, dangL_mid, dangL_append, dang]
      rfl

theorem insertFileAtM_ok (ptr : Nat) (name : Bytes) (nb : Nat) (info : FileInfo) (path : List Bytes) :
    ∀ (m : Mem) (blk : Option Nat) (kids : List EntryM) (F D : List Nat), Ok blk kids →
    arrOf blk kids path = some ptr → Heap m (nb :: (tree blk kids ++ F)) (dangL kids ++ D) →
    Rel (fun r p => ∃ leak, FileOk F D (dangL kids).length r p leak ∧ arrOf r.blk r.kids path = some ptr)
      (insertFileAtM ptr m blk kids name nb info path) (insertFileAt (eraseL kids) path name info) := by
  induction path with
  | nil =>
    intro m blk kids F D hk ha
    cases ha
  | cons c cs ih =>
    intro m blk kids F D hk ha h
    unfold arrOf at ha
    unfold insertFileAtM insertFileAt
    rw [findEntry_eq]
    cases hf : findM kids c with
    | none => rw [hf] at ha; cases ha
    | some e =>
      rw [hf] at ha
      cases e with
      | file a b i => cases ha
      | folder n b fr bl ch =>
        dsimp only at ha
        simp only [Option.map_some, erase]
        obtain ⟨l1, l2, hke, hn, hrep⟩ := find_split hk hf
        have hc : Ok bl ch := hk.sub (n := n) (nb := b) (fr := fr) (by rw [hke]; simp)
        have h2 : Heap m (nb :: (tree bl ch ++ (blk.toList ++ blksL l1 ++ (if fr then [] else [b]) ++ blksL l2 ++ F)))
            (dangL ch ++ (dangL l1 ++ (if fr then [b] else []) ++ dangL l2 ++ D)) := by
          refine (h.perm ?_).sub ?_
          · rw [hke, tree, blksL_mid, blks_folder]
            perms
          · intro d hd
            rw [hke, dangL_mid]
            simp only [dang, List.mem_append] at hd ⊢
            rcases hd with hd | ((hd | hd) | hd) | hd <;> simp [hd]
        have fin : ∀ (r : FileRes) (q : List Entry) (leak : List Nat),
            FileOk (blk.toList ++ blksL l1 ++ (if fr then [] else [b]) ++ blksL l2 ++ F)
              (dangL l1 ++ (if fr then [b] else []) ++ dangL l2 ++ D) (dangL ch).length r q leak →
            FileOk F D (dangL kids).length ⟨r.mem, blk, replaceM kids c (.folder n b fr r.blk r.kids)⟩
              (replaceEntry (eraseL kids) c (.folder n fr q)) leak := by
          intro r q leak hr
          refine ⟨?_, ?_, ?_, ?_⟩
          · rw [← hr.kids]
            exact (replaceEntry_eq kids c (.folder n b fr r.blk r.kids)).symm
          · dsimp only
            rw [hrep]
            rw [hke] at hk
            refine hk.set rfl ?_
            intro _ _ _ _ _ e
            cases e
            exact hr.ok
          · dsimp only
            rw [hrep]
            refine (hr.heap.perm ?_).sub ?_
            · rw [tree, tree, blksL_mid, blks_folder, tree]
              perms
            · intro d hd
              rw [dangL_mid] at hd
              simp only [dang, List.mem_append] at hd ⊢
              rcases hd with (hd | (hd | hd) | hd) | hd <;> simp [hd]
          · dsimp only
            rw [hrep, hke, dangL_mid, dangL_mid]
            have := hr.dangs
            simp only [dang, List.length_append] at this ⊢
            omega
        have farr : ∀ (b' : Option Nat) (k' : List EntryM), Ok b' k' →
            findM (replaceM kids c (.folder n b fr b' k')) c = some (.folder n b fr b' k') := by
          intro b' k' hk'
          rw [hrep]
          rw [hke] at hk
          have hk2 : Ok blk (l1 ++ EntryM.folder n b fr b' k' :: l2) :=
            hk.set rfl (fun _ _ _ _ _ e => by cases e; exact hk')
          have := find_mid hk2
          have hn' : (EntryM.folder n b fr b' k').name = c := hn
          rwa [hn'] at this
        by_cases hcs : cs = []
        · rw [if_pos hcs] at ha
          simp only [hcs, if_true]
          rw [if_pos ha, h.use (by rw [ha]; simp [tree])]
          have := insertFileM_ok name info hc h2
          simp only [Res.bind_ok, insertFileAt]
          refine this.bind ?_
          intro r q hr
          obtain ⟨leak, hr⟩ := hr
          refine .ok ⟨leak, fin r q leak hr, ?_⟩
          unfold arrOf
          dsimp only
          rw [farr _ _ hr.ok]
          dsimp only
          rw [if_pos rfl]
          exact ha
        · rw [if_neg hcs] at ha
          simp only [if_neg hcs]
          refine (ih m bl ch _ _ hc ha h2).bind ?_
          intro r q hr
          obtain ⟨leak, hr, har⟩ := hr
          refine .ok ⟨leak, fin r q leak hr, ?_⟩
          unfold arrOf
          dsimp only
          rw [farr _ _ hr.ok]
          dsimp only
          rw [if_neg hcs]
          exact har

/-! ## Records -/

/-- Specification: the directory, `current_folder`, and the blocks: those of the directory, one for each name of a
folder that has been released, and `F`. -/
structure DirOk (F : List Nat) (d : DirM) (st : DirState) : Prop where
  kids : eraseL d.kids = st.kids
  cur : d.cur.map (·.2) = st.cur
  ok : Ok d.blk d.kids
  ptr : ∀ p path, d.cur = some (p, path) → arrOf d.blk d.kids path = some p
  heap : ∃ leak, Heap d.mem (tree d.blk d.kids ++ (leak ++ F)) (dangL d.kids) ∧ leak.length = (dangL d.kids).length

theorem cdM_ok {F : List Nat} {d : DirM} {st : DirState} (h : DirOk F d st) {path : List Bytes} (hp : path ≠ []) :
    Rel (DirOk F) (cdM d path) (dirStep st (.cd path)) := by
  unfold cdM dirStep
  obtain ⟨leak, hh, hl⟩ := h.heap
  rw [← h.kids]
  refine (insertFolderM_ok path none d.mem d.blk d.kids (leak ++ F) [] h.ok (by rwa [List.append_nil])).bind ?_
  intro r q hr
  refine .ok ⟨hr.kids, ?_, hr.ok, ?_, leak, by have := hr.heap; rwa [List.append_nil] at this, by rw [hr.dangs]; exact hl⟩
  · have := hr.found (.inl hp)
    dsimp only
    rw [this]
    cases r.ptr <;> rfl
  · intro p path' he
    cases hp' : r.ptr with
    | none => rw [hp'] at he; cases he
    | some p' =>
      rw [hp'] at he
      cases he
      exact hr.arr hp _ hp'

theorem dataM_ok {F : List Nat} {d : DirM} {st : DirState} (h : DirOk F d st) (name : Bytes) (info : FileInfo) :
    Rel (DirOk F) (dataM d name info) (dirStep st (.data name info)) := by
  unfold dataM dirStep
  obtain ⟨leak, hh, hl⟩ := h.heap
  have hc := h.cur
  cases hd : d.cur with
  | none =>
    rw [hd] at hc
    rw [← hc]
    exact .abort
  | some pp =>
    obtain ⟨p, path⟩ := pp
    rw [hd] at hc
    rw [← hc, ← h.kids]
    simp only [Option.map_some]
    refine (insertFileAtM_ok p name d.mem.alloc.2 info path d.mem.alloc.1 d.blk d.kids (leak ++ F) [] h.ok
      (h.ptr p path hd) (by rw [List.append_nil]; exact hh.alloc)).bind ?_
    intro r q hr
    obtain ⟨leak2, hr, ha⟩ := hr
    refine .ok ⟨hr.kids, rfl, hr.ok, ?_, leak2 ++ leak, ?_, ?_⟩
    · intro p' path' he
      cases he
      exact ha
    · have := hr.heap
      rw [List.append_nil] at this
      refine this.perm ?_
      perms
    · rw [hr.dangs, List.length_append]
      omega

/-- Specification: states of the loop over the records that agree. -/
structure StOk (F : List Nat) (s : PStateM) (t : PState) : Prop where
  pos : s.pos = t.pos
  path : s.curPath = t.curPath
  dir : DirOk F s.dir t.dir

theorem viewTarget_ne {p : Bytes} {t : List Bytes} (h : viewTarget p = .ok (some t)) : t ≠ [] := by
  unfold viewTarget at h
  obtain ⟨pv, _, h⟩ := Dyna.Key.bind_ok_inv h
  obtain ⟨a, _, h⟩ := Dyna.Key.bind_ok_inv h
  cases a with
  | none => cases h
  | some pv' =>
    dsimp only at h
    split at h
    · cases h
    · obtain ⟨rest, _, h⟩ := Dyna.Key.bind_ok_inv h
      cases h
      simp

theorem changeDir_ne {cur raw c : Bytes} {t : List Bytes} (h : changeDir cur raw = .ok (c, some t)) : t ≠ [] := by
  unfold changeDir at h
  dsimp only at h
  split at h
  · obtain ⟨t', e, h⟩ := Dyna.Key.bind_ok_inv h
    cases h
    exact viewTarget_ne e
  · obtain ⟨comps, _, h⟩ := Dyna.Key.bind_ok_inv h
    obtain ⟨cur', _, h⟩ := Dyna.Key.bind_ok_inv h
    obtain ⟨t', e, h⟩ := Dyna.Key.bind_ok_inv h
    cases t' with
    | none => cases h
    | some t' => cases h; exact viewTarget_ne e

theorem applyRecM_ok {F : List Nat} {s : PStateM} {t : PState} (h : StOk F s t) (i : Nat) (r : Rec) (next : Nat) :
    Rel (StOk F) (applyRecM i s r next) (applyRec i t r next) := by
  unfold applyRecM applyRec
  cases r with
  | cd raw =>
    dsimp only
    rw [h.path]
    refine (Rel.self (changeDir t.curPath raw)).bind ?_
    intro a b hab
    obtain ⟨rfl, e⟩ := hab
    obtain ⟨c, o⟩ := a
    cases o with
    | none => exact .ok ⟨rfl, rfl, h.dir⟩
    | some path =>
      refine (cdM_ok h.dir (changeDir_ne e)).bind ?_
      intro d d' hd
      exact .ok ⟨rfl, rfl, hd⟩
  | data ty name size pos =>
    refine (dataM_ok h.dir name _).bind ?_
    intro d d' hd
    exact .ok ⟨rfl, h.path, hd⟩
  | other c => exact .ok ⟨rfl, h.path, h.dir⟩

/-- Specification: results of parsing a file that agree. -/
structure OutOk (F : List Nat) (o : ParseOutM) (p : ParseOut) : Prop where
  kids : eraseL o.kids = p.kids
  error : o.error = p.error
  ok : Ok o.blk o.kids
  heap : ∃ leak, Heap o.mem (tree o.blk o.kids ++ (leak ++ F)) (dangL o.kids) ∧ leak.length = (dangL o.kids).length

/-- Specification: both go on, or both end with results that agree. -/
inductive OptRel {α β : Type} (R : α → β → Prop) : Option α → Option β → Prop
  | none : OptRel R none none
  | some {a : α} {b : β} (h : R a b) : OptRel R (some a) (some b)

theorem failM_ok {m : Mem} {L D : List Nat} (h : Heap m L D) (msg : Bytes) : ∃ m', failM m msg = .ok m' ∧ Heap m' L D := by
  unfold failM
  split
  · exact h.alloc.free'
  · exact ⟨m, rfl, h⟩

theorem parseLoopM_ok {F : List Nat} (hd : Header) (i : Nat) (f : Bytes) : ∀ (fuel : Nat) (s : PStateM) (t : PState),
    StOk F s t → Rel (OptRel (OutOk F)) (parseLoopM hd i f fuel s) (parseLoop hd i f fuel t) := by
  intro fuel
  induction fuel with
  | zero => intro s t _; exact .ok .none
  | succ fuel ih =>
    intro s t h
    unfold parseLoopM parseLoop
    rw [h.pos]
    cases readRecord hd f t.pos with
    | done => exact .ok (.some ⟨h.dir.kids, rfl, h.dir.ok, h.dir.heap⟩)
    | assertFail => exact .abort
    | fail cmd msg =>
      dsimp only
      have hc : (cmd = some 3 ∧ s.dir.cur = none) ↔ (cmd = some 3 ∧ t.dir.cur = none) := by
        rw [← h.dir.cur]
        cases s.dir.cur <;> simp
      by_cases h3 : cmd = some 3 ∧ t.dir.cur = none
      · rw [if_pos h3, if_pos (hc.2 h3)]
        exact .abort
      · rw [if_neg h3, if_neg (fun x => h3 (hc.1 x))]
        obtain ⟨leak, hh, hl⟩ := h.dir.heap
        obtain ⟨m', e, hh⟩ := failM_ok hh msg
        rw [e]
        exact .ok (.some ⟨h.dir.kids, rfl, h.dir.ok, leak, hh, hl⟩)
    | rcd r next =>
      dsimp only
      refine (applyRecM_ok h i r next).bind ?_
      intro a b hab
      exact ih a b hab

theorem parseFileM_ok {F : List Nat} (fuel i : Nat) (content : Option Bytes) {m : Mem} {blk : Option Nat}
    {kids : List EntryM} (ok : Ok blk kids)
    (heap : ∃ leak, Heap m (tree blk kids ++ (leak ++ F)) (dangL kids) ∧ leak.length = (dangL kids).length) :
    Rel (OptRel (OutOk F)) (parseFileM fuel i content m blk kids) (parseFile fuel i content (eraseL kids)) := by
  unfold parseFileM parseFile
  cases content with
  | none => exact .ok (.some ⟨rfl, rfl, ok, heap⟩)
  | some f =>
    dsimp only
    cases readHeader f with
    | inr msg => exact .ok (.some ⟨rfl, rfl, ok, heap⟩)
    | inl hd => exact parseLoopM_ok hd i f fuel _ _ ⟨rfl, rfl, rfl, rfl, ok, fun _ _ h => (by cases h), heap⟩

/-! ## Files -/

/-- Specification: the blocks of a file. -/
def fblks (f : FileM) : List Nat := f.path.toList ++ f.handles.toList ++ f.fp.toList

/-- Specification: the blocks of files. -/
def fblksL (l : List FileM) : List Nat := l.flatMap fblks

/-- Specification: the blocks of `file_errors`. -/
def eblks (e : ErrM) : List Nat := e.arr.toList ++ e.texts

/-- A file that has been opened and not been used. -/
def Fresh (f : FileM) : Prop := f.path.isSome = true ∧ f.handles = none ∧ f.fp = none

theorem mfOpenM_ok {m : Mem} {L D : List Nat} (h : Heap m L D) (name : Bytes) :
    ∃ m' f, mfOpenM m name = .ok (m', f) ∧ Heap m' (fblks f ++ L) D ∧ Fresh f := by
  unfold mfOpenM
  split
  · exact ⟨_, _, rfl, h.alloc, rfl, rfl, rfl⟩
  · obtain ⟨m', e, h'⟩ := (h.alloc.alloc.perm (List.Perm.swap _ _ _)).free'
    simp only [e, Res.bind_ok]
    exact ⟨_, _, rfl, h', rfl, rfl, rfl⟩

theorem openAllM_ok {L D : List Nat} : ∀ (names : List Bytes) (m : Mem), Heap m L D →
    ∃ m' fs, openAllM m names = .ok (m', fs) ∧ Heap m' (fblksL fs ++ L) D ∧ fs.length = names.length ∧ ∀ f ∈ fs, Fresh f := by
  intro names
  induction names generalizing L with
  | nil => intro m h; exact ⟨m, [], rfl, h, rfl, by simp⟩
  | cons n ns ih =>
    intro m h
    obtain ⟨m1, f, e1, h1, hf⟩ := mfOpenM_ok h n
    obtain ⟨m2, fs, e2, h2, hl, hfs⟩ := ih m1 h1
    refine ⟨m2, f :: fs, by unfold openAllM; simp only [e1, e2, Res.bind_ok], ?_, by simp [hl], ?_⟩
    · refine h2.perm ?_
      rw [fblksL, fblksL, List.flatMap_cons]
      perms
    · intro x hx
      rcases List.mem_cons.1 hx with e | hx
      · subst e; exact hf
      · exact hfs x hx

theorem mfAccessM_ok {m : Mem} {f : FileM} {L D : List Nat} (hf : Fresh f) (h : Heap m (fblks f ++ L) D)
    (content : Option Bytes) : ∃ m' f', mfAccessM m f content = .ok (m', f') ∧ Heap m' (fblks f' ++ L) D ∧
      f'.handles.isSome = true ∧ f'.content = content ∧ f'.fp.isSome = content.isSome := by
  obtain ⟨h1, h2, h3⟩ := hf
  obtain ⟨path, handles, fp, cont⟩ := f
  dsimp only at h1 h2 h3
  subst h2 h3
  cases path with
  | none => cases h1
  | some p =>
    unfold mfAccessM
    have hu : useArr m (some p) = .ok () := h.use (by simp [fblks])
    rw [hu]
    obtain ⟨m', b, e, h'⟩ := Heap.realloc (o := none) (L := p :: L) (h.perm (by simp [fblks]))
    simp only [Res.bind_ok, e]
    cases content with
    | none =>
      refine ⟨_, _, rfl, h'.perm ?_, rfl, rfl, rfl⟩
      rw [fblks]
      perms
    | some c =>
      refine ⟨_, _, rfl, h'.alloc.perm ?_, rfl, rfl, rfl⟩
      rw [fblks]
      perms

theorem mfCloseM_ok {m : Mem} {f : FileM} {L D : List Nat} (h : Heap m (fblks f ++ L) D) :
    ∃ m', mfCloseM m f = .ok m' ∧ Heap m' L D := by
  unfold mfCloseM
  have h1 : Heap m (f.path.toList ++ (f.fp.toList ++ (f.handles.toList ++ L))) D := by
    refine h.perm ?_
    rw [fblks]
    perms
  obtain ⟨m1, e1, h2⟩ := h1.freeOpt
  obtain ⟨m2, e2, h3⟩ := h2.freeOpt
  obtain ⟨m3, e3, h4⟩ := h3.freeOpt
  exact ⟨m3, by simp only [e1, e2, e3, Res.bind_ok], h4⟩

theorem addErrorM_ok {m : Mem} {e : ErrM} {L D : List Nat} (h : Heap m (eblks e ++ L) D) :
    ∃ m' e', addErrorM m e = .ok (m', e') ∧ Heap m' (eblks e' ++ L) D ∧ e'.texts.length = e.texts.length + 1 := by
  unfold addErrorM
  have h1 : Heap m (e.arr.toList ++ (e.texts ++ L)) D := h.perm (by rw [eblks]; perms)
  obtain ⟨m1, a, e1, h2⟩ := h1.realloc
  obtain ⟨m2, b, e2, h3⟩ := Heap.realloc (o := none) (L := a :: (e.texts ++ L)) h2
  obtain ⟨m3, b3, e3, h4⟩ := Heap.realloc (o := some b) h3
  obtain ⟨m4, b4, e4, h5⟩ := Heap.realloc (o := some b3) h4
  simp only [e1, e2, e3, e4, Res.bind_ok]
  refine ⟨_, _, rfl, h5.perm ?_, by simp⟩
  rw [eblks]
  perms

theorem joinM_ok {L D : List Nat} : ∀ (ts : List Nat) (m : Mem) (buf : Option Nat), Heap m (buf.toList ++ (ts ++ L)) D →
    ∃ m' o, joinM m buf ts = .ok (m', o) ∧ Heap m' (o.toList ++ L) D ∧ o.isSome = (buf.isSome || !ts.isEmpty) := by
  intro ts
  induction ts with
  | nil => intro m buf h; exact ⟨m, buf, rfl, h, by simp⟩
  | cons t ts ih =>
    intro m buf h
    unfold joinM
    rw [h.use (by simp)]
    obtain ⟨m1, b, e1, h1⟩ := h.realloc
    obtain ⟨m2, e2, h2⟩ := Heap.free' (b := t) (L := b :: (ts ++ L)) (h1.perm (by perms))
    simp only [e1, e2, Res.bind_ok]
    split
    · rename_i hts
      subst hts
      exact ⟨m2, some b, rfl, h2, by simp⟩
    · obtain ⟨m3, c, e3, h3⟩ := Heap.realloc (o := some b) h2
      simp only [e3, Res.bind_ok]
      obtain ⟨m4, o, e4, h4, h5⟩ := ih m3 (some c) h3
      exact ⟨m4, o, e4, h4, by rw [h5]; simp⟩

theorem openErrorM_ok {m : Mem} {e : ErrM} {L D : List Nat} (h : Heap m (eblks e ++ L) D) :
    ∃ m' o, openErrorM m e = .ok (m', o) ∧ Heap m' (o.toList ++ L) D ∧ o.isSome = !e.texts.isEmpty := by
  unfold openErrorM
  obtain ⟨m1, o, e1, h1, h2⟩ := joinM_ok (L := e.arr.toList ++ L) e.texts m none
    (h.perm (by rw [eblks]; perms))
  obtain ⟨m2, e2, h3⟩ := Heap.freeOpt (o := e.arr) (L := o.toList ++ L) (h1.perm (by perms))
  simp only [e1, e2, Res.bind_ok]
  exact ⟨m2, o, rfl, h3, by rw [h2]; rfl⟩

/-- A file after the loop: open, or closed and empty. -/
def Settled (f : FileM) : Prop :=
  (f.handles.isSome = true ∧ f.content.isSome = true ∧ f.fp.isSome = true) ∨ f = {}

/-- Specification: files and errors that agree. -/
structure FilesOk (s : OpenM) (t : OpenState) : Prop where
  files : s.files.map (·.content) = t.files
  settled : ∀ f ∈ s.files, Settled f
  errors : s.texts = t.errors
  texts : s.errs.texts.length = s.texts.length

/-- Specification: states of the loop over the files that agree. -/
structure OpenOk (F : List Nat) (s : OpenM) (t : OpenState) : Prop extends FilesOk s t where
  kids : eraseL s.kids = t.kids
  ok : Ok s.blk s.kids
  heap : ∃ leak, Heap s.mem (tree s.blk s.kids ++ (leak ++ (fblksL s.files ++ (eblks s.errs ++ F)))) (dangL s.kids) ∧
    leak.length = (dangL s.kids).length

theorem endFileM_ok {F : List Nat} {s : OpenM} {t : OpenState} {f : FileM} {o : ParseOutM} {p : ParseOut} (name : Bytes)
    (h : FilesOk s t) (hf : f.handles.isSome = true) (hp : f.fp.isSome = f.content.isSome) (hc : f.content = none → p.error ≠ none)
    (ho : OutOk (fblksL s.files ++ (eblks s.errs ++ (fblks f ++ F))) o p) :
    ∃ s', endFileM name o f s = .ok s' ∧ OpenOk F s' (match p.error with
      | none => ⟨p.kids, t.files ++ [f.content], t.errors⟩
      | some msg => ⟨p.kids, t.files ++ [none], t.errors ++ [fileError name msg]⟩) := by
  unfold endFileM
  rw [ho.error]
  obtain ⟨leak, hh, hl⟩ := ho.heap
  cases he : p.error with
  | none =>
    refine ⟨_, rfl, ⟨?_, ?_, h.errors, h.texts⟩, ho.kids, ho.ok, leak, ?_, hl⟩
    · simp [h.files]
    · intro x hx
      rcases List.mem_append.1 hx with hx | hx
      · exact h.settled x hx
      · rw [List.mem_singleton] at hx
        subst hx
        cases hcc : x.content with
        | none => exact absurd he (hc hcc)
        | some _ => exact .inl ⟨hf, by rw [hcc]; rfl, by rw [hp, hcc]; rfl⟩
    · refine hh.perm ?_
      dsimp only
      rw [fblksL, fblksL, List.flatMap_append, List.flatMap_singleton]
      perms
  | some msg =>
    obtain ⟨m1, e1, h1⟩ := mfCloseM_ok (f := f) (L := tree o.blk o.kids ++ (leak ++ (fblksL s.files ++ (eblks s.errs ++ F))))
      (hh.perm (by perms))
    obtain ⟨m2, e2, r2, h2, hl2⟩ := addErrorM_ok (e := s.errs) (L := tree o.blk o.kids ++ (leak ++ (fblksL s.files ++ F)))
      (h1.perm (by perms))
    simp only [e1, r2, Res.bind_ok]
    refine ⟨_, rfl, ⟨?_, ?_, ?_, ?_⟩, ho.kids, ho.ok, leak, ?_, hl⟩
    · simp [h.files]
    · intro x hx
      rcases List.mem_append.1 hx with hx | hx
      · exact h.settled x hx
      · rw [List.mem_singleton] at hx
        exact .inr hx
    · simp [h.errors]
    · simp [hl2, h.texts]
    · refine h2.perm ?_
      dsimp only
      rw [fblksL, fblksL, List.flatMap_append, List.flatMap_singleton]
      have : fblks {} = [] := rfl
      rw [this]
      perms

theorem openFilesM_ok {F : List Nat} (fuel fb : Nat) (hfb : fb ∈ F) : ∀ (l : List (Bytes × Option Bytes)) (i : Nat)
    (fs : List FileM) (s : OpenM) (t : OpenState), fs.length = l.length → (∀ f ∈ fs, Fresh f) →
    OpenOk (fblksL fs ++ F) s t →
    Rel (OptRel (fun s' t' => OpenOk F s' t' ∧ s'.files.length = s.files.length + l.length)) (openFilesM fuel fb i l fs s) (openFiles fuel i l t) := by
  intro l
  induction l with
  | nil =>
    intro i fs s t hl _ h
    cases fs with
    | cons _ _ => cases hl
    | nil =>
      unfold openFilesM openFiles
      exact .ok (.some ⟨h, rfl⟩)
  | cons x rest ih =>
    intro i fs s t hl hfr h
    obtain ⟨name, content⟩ := x
    cases fs with
    | nil => cases hl
    | cons f fs =>
      unfold openFilesM openFiles
      obtain ⟨leak, hh, hlk⟩ := h.heap
      rw [hh.use (by simp [hfb])]
      obtain ⟨m1, f', e1, h1, hhd, hct, hfp⟩ := mfAccessM_ok (f := f)
        (L := tree s.blk s.kids ++ (leak ++ (fblksL s.files ++ (eblks s.errs ++ (fblksL fs ++ F))))) (hfr f (by simp))
        (hh.perm (by rw [fblksL, fblksL, fblksL, List.flatMap_cons]; perms)) content
      simp only [e1, Res.bind_ok]
      rw [← h.kids]
      have hp := parseFileM_ok (F := fblksL s.files ++ (eblks s.errs ++ (fblks f' ++ (fblksL fs ++ F)))) fuel i content
        (m := m1) (blk := s.blk) (kids := s.kids) h.ok ⟨leak, h1.perm (by perms), hlk⟩
      have hnone : content = none → ∀ p, parseFile fuel i content (eraseL s.kids) = .ok (some p) → p.error ≠ none := by
        intro hc p hp
        subst hc
        unfold parseFile at hp
        cases hp
        simp
      generalize parseFileM fuel i content m1 s.blk s.kids = x at hp
      generalize parseFile fuel i content (eraseL s.kids) = y at hp hnone
      cases hp with
      | ub => exact .ub
      | err => exact .err
      | abort => exact .abort
      | ok hab =>
        simp only [Res.bind_ok]
        cases hab with
        | none => exact .ok .none
        | some ho =>
          rename_i o p
          dsimp only
          obtain ⟨s2, e2, h2⟩ := endFileM_ok (F := fblksL fs ++ F) name h.toFilesOk hhd (by rw [hfp, hct])
            (fun hc => hnone (by rw [← hct]; exact hc) p rfl) ho
          simp only [e2, Res.bind_ok]
          have hl' : fs.length = rest.length := by simpa using hl
          have hfr' : ∀ f ∈ fs, Fresh f := fun f hf => hfr f (by simp [hf])
          cases he : p.error with
          | none =>
            simp only [he] at h2
            rw [hct] at h2
            have hn : s2.files.length = s.files.length + 1 := by
              have a := congrArg List.length h2.files
              have b := congrArg List.length h.files
              simp only [List.length_map, List.length_append, List.length_singleton] at a b
              omega
            have hlen : s2.files.length + rest.length = s.files.length + (rest.length + 1) := by omega
            have := ih (i + 1) fs s2 _ hl' hfr' h2
            rw [hlen] at this
            exact this
          | some msg =>
            simp only [he] at h2
            have hn : s2.files.length = s.files.length + 1 := by
              have a := congrArg List.length h2.files
              have b := congrArg List.length h.files
              simp only [List.length_map, List.length_append, List.length_singleton] at a b
              omega
            have hlen : s2.files.length + rest.length = s.files.length + (rest.length + 1) := by omega
            have := ih (i + 1) fs s2 _ hl' hfr' h2
            rw [hlen] at this
            exact this

/-! ## The array of files -/

theorem shrinkM_ok {zero : Bool} {m : Mem} {fb : Option Nat} {n : Nat} {L D : List Nat} (h : Heap m (fb.toList ++ L) D) :
    ∃ m' fb', shrinkM zero m fb n = .ok (m', fb') ∧ Heap m' (fb'.toList ++ L) D ∧ (fb' = none ↔ (n = 0 ∧ zero = false)) := by
  unfold shrinkM
  split
  · rename_i hc
    obtain ⟨m1, e1, h1⟩ := h.freeOpt
    simp only [e1, Res.bind_ok]
    exact ⟨m1, none, rfl, h1, by simp [hc]⟩
  · rename_i hc
    obtain ⟨m1, b, e1, h1⟩ := h.realloc
    simp only [e1, Res.bind_ok]
    exact ⟨m1, some b, rfl, h1, by simp [hc]⟩

theorem settled_none {f : FileM} (h : Settled f) : (f.handles = none ↔ f.content = none) ∧ (f.handles = none → f = {}) := by
  rcases h with ⟨h1, h2⟩ | h
  · cases h3 : f.handles <;> cases h4 : f.content <;> simp_all
  · subst h; simp

theorem fblksL_remove {files : List FileM} {i : Nat} {l : FileM} (hi : files[i]? = some {}) (hl : files.getLast? = some l) :
    (fblksL files).Perm (fblksL ((files.set i l).dropLast)) := by
  have hne : files ≠ [] := by intro e; subst e; cases hl
  obtain ⟨hlt, hget⟩ := List.getElem?_eq_some_iff.1 hi
  obtain ⟨init, rfl⟩ : ∃ init, files = init ++ [l] := List.getLast?_eq_some_iff.1 hl
  by_cases h : i < init.length
  · rw [List.set_append_left _ _ h, List.dropLast_concat]
    rw [List.getElem?_append_left h] at hi
    obtain ⟨l1, l2, h1, h2⟩ : ∃ l1 l2, init = l1 ++ ({} : FileM) :: l2 ∧ l1.length = i := by
      obtain ⟨hlt', hget'⟩ := List.getElem?_eq_some_iff.1 hi
      refine ⟨init.take i, init.drop (i + 1), ?_, by rw [List.length_take]; omega⟩
      rw [← hget', List.getElem_cons_drop, List.take_append_drop]
    subst h1 h2
    rw [set_mid]
    simp only [fblksL, List.flatMap_append, List.flatMap_cons, List.flatMap_nil]
    have : fblks {} = [] := rfl
    rw [this]
    perms
  · have hi' : i = init.length := by
      simp at hlt
      omega
    subst hi'
    rw [get_mid] at hi
    cases hi
    rw [set_mid, List.dropLast_concat]
    simp only [fblksL, List.flatMap_append, List.flatMap_cons, List.flatMap_nil]
    have : fblks {} = [] := rfl
    rw [this]
    perms

theorem mem_remove {files : List FileM} {i : Nat} {l f : FileM} (hl : files.getLast? = some l)
    (h : f ∈ (files.set i l).dropLast) : f ∈ files := by
  have h := List.dropLast_subset _ h
  rcases List.mem_or_eq_of_mem_set h with h | h
  · exact h
  · subst h; exact List.mem_of_getLast? hl

theorem cleanM_ok {zero : Bool} {L D : List Nat} : ∀ (n : Nat) (m : Mem) (fb : Option Nat) (files : List FileM) (i : Nat),
    (∀ f ∈ files, Settled f) → (fb = none ↔ files = [] ∧ zero = false) → Heap m (fb.toList ++ (fblksL files ++ L)) D →
    ∃ m' fb' files', cleanM zero n m fb files i = .ok (m', fb', files') ∧ (∀ f ∈ files', Settled f) ∧
      (fb' = none ↔ files' = [] ∧ zero = false) ∧ Heap m' (fb'.toList ++ (fblksL files' ++ L)) D ∧
      files'.map (·.content) = cleanUpLoop n (files.map (·.content)) i := by
  intro n
  induction n with
  | zero => intro m fb files i hs hf h; exact ⟨m, fb, files, rfl, hs, hf, h, rfl⟩
  | succ n ih =>
    intro m fb files i hs hf h
    unfold cleanM cleanUpLoop
    rw [List.getElem?_map]
    cases hi : files[i]? with
    | none => exact ⟨m, fb, files, rfl, hs, hf, h, rfl⟩
    | some f =>
      have hmem : f ∈ files := List.mem_of_getElem? hi
      obtain ⟨b, rfl⟩ : ∃ b, fb = some b := by
        cases fb with
        | none => rw [(hf.1 rfl).1] at hmem; cases hmem
        | some b => exact ⟨b, rfl⟩
      have hu : useArr m (some b) = .ok () := h.use (by simp)
      simp only [hu, Res.bind_ok]
      obtain ⟨s1, s2⟩ := settled_none (hs f hmem)
      cases hc : f.content with
      | some c =>
        have hne : ¬ f.handles = none := fun e => by rw [s1.1 e] at hc; cases hc
        rw [if_neg hne]
        simp only [Option.map_some, hc]
        exact ih m (some b) files (i + 1) hs hf h
      | none =>
        have he := s2 (s1.2 hc)
        subst he
        simp only [if_true, Option.map_some]
        cases hl : files.getLast? with
        | none => rw [List.getLast?_eq_none_iff] at hl; rw [hl] at hmem; cases hmem
        | some l =>
          dsimp only
          obtain ⟨m1, fb1, e1, h1, h2⟩ := shrinkM_ok (zero := zero) (n := files.length - 1) h
          simp only [e1, Res.bind_ok]
          have hlen : ((files.set i l).dropLast).length = files.length - 1 := by simp
          have hp := fblksL_remove hi hl
          obtain ⟨m', fb', files', g1, g2, g3, g4, g5⟩ := ih m1 fb1 ((files.set i l).dropLast) i
            (fun x hx => hs x (mem_remove hl hx))
            (by rw [h2, ← hlen, List.length_eq_zero_iff])
            (h1.perm ((List.Perm.append_left _ (List.Perm.append_right _ hp))))
          refine ⟨m', fb', files', g1, g2, g3, g4, ?_⟩
          rw [g5, List.getLast?_map, hl]
          simp only [Option.map_some]
          rw [List.map_dropLast, List.map_set]

theorem globM_ok {D : List Nat} : ∀ (n : Nat) (m : Mem) (L : List Nat), Heap m L D →
    Heap (globM m n).1 ((globM m n).2 ++ L) D := by
  intro n
  induction n with
  | zero => intro m L h; exact h
  | succ n ih =>
    intro m L h
    unfold globM
    refine (ih _ _ h.alloc).perm ?_
    dsimp only
    perms

/-! ## Opening -/

/-- Specification: the blocks of a `binout_file` besides the array `files`. -/
def BinM.blks (b : BinM) : List Nat := tree b.blk b.kids ++ fblksL b.files ++ b.err.toList

/-- Specification: a `binout_file` with its blocks and one without them are the same; every name of a folder that has
been released has cost one block; and `base` is what was allocated before. -/
structure BinOk (zero empty : Bool) (base : List Nat) (r : Mem × BinM) (b : BinFile) : Prop where
  kids : eraseL r.2.kids = b.kids
  files : r.2.files.map (·.content) = b.files
  err : r.2.err.isSome = b.error.isSome
  ok : Ok r.2.blk r.2.kids
  settled : ∀ f ∈ r.2.files, Settled f
  arr : r.2.fb = none ↔ b.files = [] ∧ (zero = false ∨ empty = true)
  heap : ∃ leak, Heap r.1 (r.2.blks ++ (r.2.fb.toList ++ (leak ++ base))) (dangL r.2.kids) ∧
    leak.length = (dangL r.2.kids).length

theorem joinErrors_some (l : List Bytes) : (joinErrors l).isSome = !l.isEmpty := by
  cases l with
  | nil => rfl
  | cons e es =>
    cases es with
    | nil => rfl
    | cons a t =>
      unfold joinErrors
      cases joinErrors (a :: t) <;> rfl

theorem openM_ok (zero : Bool) (fuel : Nat) (pattern : Bytes) (files : List (Bytes × Option Bytes)) {m : Mem}
    {base : List Nat} (h : Heap m base []) :
    Rel (OptRel (BinOk zero files.isEmpty base)) (openM zero fuel files m) (binoutOpen fuel pattern files) := by
  unfold openM binoutOpen
  by_cases hf : files = []
  · rw [if_pos hf, if_pos hf]
    obtain ⟨m1, e, e1, h1, hl⟩ := addErrorM_ok (e := {}) h
    obtain ⟨m2, o, e2, h2, ho⟩ := openErrorM_ok h1
    simp only [e1, e2, Res.bind_ok]
    refine .ok (.some ⟨rfl, rfl, ?_, Ok.nil, by simp, by simp [hf], [], ?_, rfl⟩)
    · rw [joinErrors_some, ho]
      cases ht : e.texts with
      | nil => rw [ht] at hl; cases hl
      | cons _ _ => rfl
    · refine (h2.perm ?_)
      simp only [BinM.blks, tree, blksL, fblksL, List.flatMap_nil]
      perms
  · rw [if_neg hf, if_neg hf]
    dsimp only
    have h1 := globM_ok files.length _ _ h.alloc
    generalize hg : globM m.alloc.1 files.length = g at h1 ⊢
    obtain ⟨m1, names⟩ := g
    dsimp only at h1 ⊢
    obtain ⟨m2, fs, e2, h2, hl2, hfr⟩ := openAllM_ok (files.map (·.1)) _ h1.alloc
    simp only [e2, Res.bind_ok]
    rw [List.length_map] at hl2
    have ho := openFilesM_ok (F := m1.alloc.2 :: (names ++ m.alloc.2 :: base)) fuel m1.alloc.2 (by simp) files 0 fs
      { mem := m2 } {} hl2 hfr ⟨⟨rfl, by simp, rfl, rfl⟩, rfl, Ok.nil, [], by
        simp only [tree, blksL, fblksL, eblks, List.flatMap_nil, dangL]
        exact h2.perm (by rw [fblksL]; perms), rfl⟩
    generalize openFilesM fuel m1.alloc.2 0 files fs { mem := m2 } = x at ho
    generalize openFiles fuel 0 files {} = y at ho
    cases ho with
    | ub => exact .ub
    | err => exact .err
    | abort => exact .abort
    | ok hab =>
      simp only [Res.bind_ok]
      cases hab with
      | none => exact .ok .none
      | some ho =>
        rename_i s t
        obtain ⟨ho, hlen⟩ := ho
        dsimp only
        obtain ⟨leak, hh, hlk⟩ := ho.heap
        obtain ⟨m3, e3, h3⟩ := Heap.freeAll (l := names) (L := m.alloc.2 :: m1.alloc.2 :: (tree s.blk s.kids ++ (leak ++
          (fblksL s.files ++ (eblks s.errs ++ base))))) (hh.perm (by perms))
        obtain ⟨m4, e4, h4⟩ := h3.free'
        simp only [e3, e4, Res.bind_ok]
        have hne : s.files ≠ [] := by
          intro e
          rw [e] at hlen
          cases files with
          | nil => exact hf rfl
          | cons _ _ => simp at hlen
        obtain ⟨m5, fb, fl, e5, h5, hfb, h6, hcl⟩ := cleanM_ok (zero := zero) (D := dangL s.kids)
          (L := eblks s.errs ++ (tree s.blk s.kids ++ (leak ++ base))) s.files.length m4
          (some m1.alloc.2) s.files 0 ho.settled (by simp [hne]) (h4.perm (by perms))
        simp only [e5, Res.bind_ok]
        obtain ⟨m6, o, e6, h7, ho7⟩ := openErrorM_ok (e := s.errs) (L := fb.toList ++ (fblksL fl ++
          (tree s.blk s.kids ++ (leak ++ base)))) (h6.perm (by perms))
        simp only [e6, Res.bind_ok]
        refine .ok (.some ⟨ho.kids, ?_, ?_, ho.ok, h5, ?_, leak, ?_, hlk⟩)
        · dsimp only
          rw [hcl, cleanUp, ← ho.files, List.length_map]
        · dsimp only
          rw [joinErrors_some, ho7, ← ho.errors]
          have := ho.texts
          cases h1 : s.errs.texts <;> cases h2 : s.texts <;> simp_all
        · dsimp only
          have hce : cleanUp t.files = fl.map (·.content) := by rw [hcl, cleanUp, ← ho.files, List.length_map]
          rw [hfb, hce]
          simp [hf]
        · refine h7.perm ?_
          simp only [BinM.blks]
          perms

/-! ## Closing -/

mutual
theorem freeEntryM_ok (e : EntryM) {m : Mem} {L D : List Nat} (h : Heap m (blks e ++ L) D) (hs : SubOk e) (hd : dang e = []) :
    ∃ m', freeEntryM m e = .ok m' ∧ Heap m' L D := by
  cases e with
  | file n nb i => exact Heap.free' h
  | folder n nb fr blk kids =>
    have hk := hs n nb fr blk kids rfl
    have hfr : fr = false := by cases fr <;> simp [dang] at hd ⊢
    subst hfr
    have hdk : dangL kids = [] := by simpa [dang] using hd
    rw [blks_folder] at h
    simp only [Bool.false_eq_true, if_false] at h
    obtain ⟨m1, e1, h1⟩ := Heap.free' (b := nb) (L := tree blk kids ++ L) h
    unfold freeEntryM
    simp only [e1, Res.bind_ok]
    cases kids with
    | nil =>
      have := hk.null.1 rfl
      subst this
      exact ⟨m1, rfl, h1⟩
    | cons k ks =>
      obtain ⟨b, rfl⟩ : ∃ b, blk = some b := by
        cases blk with
        | none => exact absurd (hk.null.2 rfl) (by simp)
        | some b => exact ⟨b, rfl⟩
      have hu : useArr m1 (some b) = .ok () := h1.use (by simp [tree])
      have hdk' : dang k = [] ∧ dangL ks = [] := by simpa [dangL] using hdk
      have h2 : Heap m1 (blks k ++ (blksL ks ++ (b :: L))) D := h1.perm (by rw [tree, blksL]; perms)
      obtain ⟨m2, e2, h2⟩ := freeEntryM_ok k h2 (fun n nb fr b ch e => hk.sub (n := n) (nb := nb) (fr := fr) (by rw [e]; simp)) hdk'.1
      obtain ⟨m3, e3, h3⟩ := freeKidsM_ok ks h2 (fun x hx n nb fr b ch e => hk.sub (n := n) (nb := nb) (fr := fr)
        (by subst e; simp [hx])) hdk'.2
      obtain ⟨m4, e4, h4⟩ := Heap.freeOpt (o := some b) h3
      exact ⟨m4, by simp only [hu, e2, e3, e4, Res.bind_ok], h4⟩
theorem freeKidsM_ok (l : List EntryM) {m : Mem} {L D : List Nat} (h : Heap m (blksL l ++ L) D) (hs : ∀ e ∈ l, SubOk e)
    (hd : dangL l = []) : ∃ m', freeKidsM m l = .ok m' ∧ Heap m' L D := by
  cases l with
  | nil => exact ⟨m, rfl, h⟩
  | cons k ks =>
    have hdk' : dang k = [] ∧ dangL ks = [] := by simpa [dangL] using hd
    obtain ⟨m2, e2, h2⟩ := freeEntryM_ok k (L := blksL ks ++ L) (h.perm (by rw [blksL]; perms)) (hs k (by simp)) hdk'.1
    obtain ⟨m3, e3, h3⟩ := freeKidsM_ok ks h2 (fun x hx => hs x (by simp [hx])) hdk'.2
    exact ⟨m3, by unfold freeKidsM; simp only [e2, e3, Res.bind_ok], h3⟩
end


mutual
theorem freeEntryM_ub (e : EntryM) {m : Mem} {L D : List Nat} (h : Heap m (blks e ++ L) (dang e ++ D)) (hs : SubOk e)
    (hd : dang e ≠ []) : freeEntryM m e = .ub := by
  cases e with
  | file n nb i => exact absurd rfl hd
  | folder n nb fr blk kids =>
    have hk := hs n nb fr blk kids rfl
    unfold freeEntryM
    cases fr with
    | true =>
      rw [h.free_gone (by simp [dang])]
      rfl
    | false =>
      have hdk : dangL kids ≠ [] := by simpa [dang] using hd
      have hde : dang (.folder n nb false blk kids) = dangL kids := by simp [dang]
      rw [blks_folder, hde] at h
      simp only [Bool.false_eq_true, if_false] at h
      obtain ⟨m1, e1, h1⟩ := Heap.free' (b := nb) (L := tree blk kids ++ L) h
      simp only [e1, Res.bind_ok]
      cases kids with
      | nil => exact absurd rfl hdk
      | cons k ks =>
        obtain ⟨b, rfl⟩ : ∃ b, blk = some b := by
          cases blk with
          | none => exact absurd (hk.null.2 rfl) (by simp)
          | some b => exact ⟨b, rfl⟩
        have hu : useArr m1 (some b) = .ok () := h1.use (by simp [tree])
        simp only [hu, Res.bind_ok]
        have h2 : Heap m1 (blks k ++ (blksL ks ++ (b :: L))) (dang k ++ (dangL ks ++ D)) :=
          (h1.perm (by rw [tree, blksL]; perms)).sub (by rw [dangL]; simp +contextual)
        have hsk : SubOk k := fun n nb fr b ch e => hk.sub (n := n) (nb := nb) (fr := fr) (by rw [e]; simp)
        have hsks : ∀ x ∈ ks, SubOk x := fun x hx n nb fr b ch e => hk.sub (n := n) (nb := nb) (fr := fr)
          (by subst e; simp [hx])
        by_cases hkd : dang k = []
        · obtain ⟨m2, e2, h2⟩ := freeEntryM_ok k (h2.sub (D' := dangL ks ++ D) (by simp +contextual)) hsk hkd
          have : dangL ks ≠ [] := by
            intro e
            apply hdk
            rw [dangL, hkd, e]
            rfl
          simp only [e2, Res.bind_ok]
          rw [freeKidsM_ub ks h2 hsks this]
          rfl
        · rw [freeEntryM_ub k h2 hsk hkd]
          rfl
theorem freeKidsM_ub (l : List EntryM) {m : Mem} {L D : List Nat} (h : Heap m (blksL l ++ L) (dangL l ++ D))
    (hs : ∀ e ∈ l, SubOk e) (hd : dangL l ≠ []) : freeKidsM m l = .ub := by
  cases l with
  | nil => exact absurd rfl hd
  | cons k ks =>
    have h2 : Heap m (blks k ++ (blksL ks ++ L)) (dang k ++ (dangL ks ++ D)) :=
      (h.perm (by rw [blksL]; perms)).sub (by rw [dangL]; simp +contextual)
    have hsks : ∀ x ∈ ks, SubOk x := fun x hx => hs x (by simp [hx])
    unfold freeKidsM
    by_cases hkd : dang k = []
    · obtain ⟨m2, e2, h2⟩ := freeEntryM_ok k (h2.sub (D' := dangL ks ++ D) (by simp +contextual)) (hs k (by simp)) hkd
      have : dangL ks ≠ [] := by
        intro e
        apply hd
        rw [dangL, hkd, e]
        rfl
      simp only [e2, Res.bind_ok]
      exact freeKidsM_ub ks h2 hsks this
    · rw [freeEntryM_ub k h2 (hs k (by simp)) hkd]
      rfl
end

theorem Ok.subOk {blk : Option Nat} {kids : List EntryM} (h : Ok blk kids) : ∀ e ∈ kids, SubOk e :=
  fun e he n nb fr b ch e1 => h.sub (n := n) (nb := nb) (fr := fr) (by rw [← e1]; exact he)

theorem useDir {m : Mem} {blk : Option Nat} {kids : List EntryM} {L D : List Nat} (hk : Ok blk kids)
    (h : Heap m (tree blk kids ++ L) D) : useKids m blk kids = .ok () := by
  unfold useKids
  split
  · rfl
  · cases blk with
    | none =>
      have := hk.null.2 rfl
      subst this
      rename_i h0
      exact absurd rfl h0
    | some b => exact h.use (by simp [tree])

theorem freeDirM_ok {m : Mem} {blk : Option Nat} {kids : List EntryM} {L D : List Nat} (hk : Ok blk kids)
    (h : Heap m (tree blk kids ++ L) D) (hd : dangL kids = []) : ∃ m', freeDirM m blk kids = .ok m' ∧ Heap m' L D := by
  unfold freeDirM
  rw [useDir hk h]
  obtain ⟨m1, e1, h1⟩ := freeKidsM_ok kids (L := blk.toList ++ L) (h.perm (by rw [tree]; perms)) hk.subOk hd
  obtain ⟨m2, e2, h2⟩ := h1.freeOpt
  exact ⟨m2, by simp only [e1, e2, Res.bind_ok], h2⟩

theorem freeDirM_ub {m : Mem} {blk : Option Nat} {kids : List EntryM} {L D : List Nat} (hk : Ok blk kids)
    (h : Heap m (tree blk kids ++ L) (dangL kids ++ D)) (hd : dangL kids ≠ []) : freeDirM m blk kids = .ub := by
  unfold freeDirM
  rw [useDir hk h]
  simp only [Res.bind_ok]
  rw [freeKidsM_ub kids (L := blk.toList ++ L) (h.perm (by rw [tree]; perms)) hk.subOk hd]
  rfl

theorem closeFilesM_ok {fb : Option Nat} {L D : List Nat} (hfb : ∀ b, fb = some b → b ∈ L) : ∀ (l : List FileM) (m : Mem),
    (fb = none → l = []) → Heap m (fblksL l ++ L) D → ∃ m', closeFilesM m fb l = .ok m' ∧ Heap m' L D := by
  intro l
  induction l with
  | nil => intro m _ h; exact ⟨m, rfl, h⟩
  | cons f fs ih =>
    intro m hn h
    unfold closeFilesM
    cases fb with
    | none => exact absurd (hn rfl) (by simp)
    | some b =>
      have hu : useArr m (some b) = .ok () := h.use (by simp [hfb b rfl])
      obtain ⟨m1, e1, h1⟩ := mfCloseM_ok (f := f) (L := fblksL fs ++ L) (h.perm (by simp only [fblksL, List.flatMap_cons]; perms))
      simp only [hu, e1, Res.bind_ok]
      exact ih m1 (fun e => by cases e) h1

mutual
/-- Specification: the folders in an entry whose name has been released. -/
def released : Entry → Nat
  | .file _ _ => 0
  | .folder _ fr kids => (if fr then 1 else 0) + releasedL kids
/-- Specification: the folders in a directory whose name has been released. -/
def releasedL : List Entry → Nat
  | [] => 0
  | e :: l => released e + releasedL l
end

mutual
theorem dang_len (e : EntryM) : (dang e).length = released (erase e) := by
  cases e with
  | file n nb i => rfl
  | folder n nb fr blk kids =>
    rw [dang, erase, released, List.length_append, dangL_len kids]
    cases fr <;> rfl
theorem dangL_len (l : List EntryM) : (dangL l).length = releasedL (eraseL l) := by
  cases l with
  | nil => rfl
  | cons e l => rw [dangL, eraseL, releasedL, List.length_append, dang_len e, dangL_len l]
end

/-- Specification: a heap: the allocated blocks are different and have been given out. -/
def Valid (m : Mem) : Prop := m.live.Nodup ∧ ∀ x ∈ m.live, x < m.next

theorem Valid.heap {m : Mem} (h : Valid m) : Heap m m.live [] := ⟨List.Perm.refl _, h.1, h.2, by simp⟩

theorem Heap.valid {m : Mem} {L D : List Nat} (h : Heap m L D) : Valid m :=
  ⟨h.own.nodup_iff.2 h.nodup, fun x hx => h.lt x (h.own.mem_iff.1 hx)⟩

/-- The opening in this model and the one of `Verif.Binout` agree in everything but memory. -/
theorem c88_open_agrees (zero : Bool) (fuel : Nat) (pattern : Bytes) (files : List (Bytes × Option Bytes)) (m : Mem)
    (hm : Valid m) : Rel (OptRel (fun r b => eraseL r.2.kids = b.kids ∧ r.2.files.map (·.content) = b.files ∧
      r.2.err.isSome = b.error.isSome)) (openM zero fuel files m) (binoutOpen fuel pattern files) := by
  have h := openM_ok zero fuel pattern files hm.heap
  generalize openM zero fuel files m = x at h
  generalize binoutOpen fuel pattern files = y at h
  cases h with
  | ub => exact .ub
  | err => exact .err
  | abort => exact .abort
  | ok h =>
    cases h with
    | none => exact .ok .none
    | some h => exact .ok (.some ⟨h.kids, h.files, h.err⟩)

/-- C88: a binout in which no variable has got the name of a folder. All blocks of the binout can be used until it is
closed. `binout_close` uses and releases nothing twice, can be called again, and leaves what was allocated before, up to
at most one block. What is missing: that block is the array `files`, which is not released unless it is empty. -/
theorem c88_close_partial (zero : Bool) (fuel : Nat) (pattern : Bytes) (files : List (Bytes × Option Bytes)) (m : Mem)
    (hm : Valid m) (b : BinFile) (hb : binoutOpen fuel pattern files = .ok (some b)) (hr : releasedL b.kids = 0) :
    ∃ m1 r m2 lost, openM zero fuel files m = .ok (some (m1, r)) ∧ eraseL r.kids = b.kids ∧
      m1.live.Perm (r.blks ++ (lost ++ m.live)) ∧ closeM m1 r = .ok (m2, {}) ∧ closeM m2 {} = .ok (m2, {}) ∧
      m2.live.Perm (lost ++ m.live) ∧ Valid m2 ∧
      lost.length = if b.files = [] ∧ (zero = false ∨ files = []) then 0 else 1 := by
  have h := openM_ok zero fuel pattern files hm.heap
  rw [hb] at h
  generalize hx : openM zero fuel files m = x at h
  cases h with
  | ok h =>
    cases h with
    | some h =>
      rename_i r
      obtain ⟨m1, r⟩ := r
      obtain ⟨leak, h1, hl⟩ := h.heap
      dsimp only at h1 hl
      have hd : dangL r.kids = [] := by
        apply List.length_eq_zero_iff.1
        rw [dangL_len]
        have := h.kids
        dsimp only at this
        rw [this]
        exact hr
      rw [hd] at hl h1
      have hl0 : leak = [] := List.length_eq_zero_iff.1 hl
      subst hl0
      have hfb : r.fb = none → r.files = [] := by
        intro e
        have := (h.arr.1 e).1
        rw [← h.files] at this
        simpa using this
      have h2 : Heap m1 (fblksL r.files ++ (tree r.blk r.kids ++ (r.err.toList ++ (r.fb.toList ++ m.live)))) [] :=
        h1.perm (by simp only [BinM.blks]; perms)
      obtain ⟨m2, e2, h3⟩ := closeFilesM_ok (fb := r.fb) (by intro b hb; simp [hb]) r.files m1 hfb h2
      obtain ⟨m3, e3, h4⟩ := freeDirM_ok h.ok h3 hd
      obtain ⟨m4, e4, h5⟩ := h4.freeOpt
      refine ⟨m1, r, m4, r.fb.toList, rfl, h.kids, h1.own.trans (by perms), ?_, rfl, h5.own, h5.valid, ?_⟩
      · unfold closeM
        simp only [e2, e3, e4, Res.bind_ok]
      · have := h.arr
        dsimp only at this
        rw [List.isEmpty_iff] at this
        split
        · rename_i hc
          rw [this.2 hc]
          rfl
        · rename_i hc
          cases hfb : r.fb with
          | none => exact absurd (this.1 hfb) hc
          | some _ => rfl

/-- C88 is violated: if a variable has got the name of a folder, `binout_close` releases the name of that folder again. -/
theorem c88_name_of_folder (zero : Bool) (fuel : Nat) (pattern : Bytes) (files : List (Bytes × Option Bytes)) (m : Mem)
    (hm : Valid m) (b : BinFile) (hb : binoutOpen fuel pattern files = .ok (some b)) (hr : releasedL b.kids ≠ 0) :
    ∃ m1 r, openM zero fuel files m = .ok (some (m1, r)) ∧ closeM m1 r = .ub := by
  have h := openM_ok zero fuel pattern files hm.heap
  rw [hb] at h
  generalize hx : openM zero fuel files m = x at h
  cases h with
  | ok h =>
    cases h with
    | some h =>
      rename_i r
      obtain ⟨m1, r⟩ := r
      obtain ⟨leak, h1, hl⟩ := h.heap
      dsimp only at h1 hl
      have hd : dangL r.kids ≠ [] := by
        intro e
        apply hr
        rw [← h.kids, ← dangL_len]
        dsimp only
        rw [e]
        rfl
      have hfb : r.fb = none → r.files = [] := by
        intro e
        have := (h.arr.1 e).1
        rw [← h.files] at this
        simpa using this
      have h2 : Heap m1 (fblksL r.files ++ (tree r.blk r.kids ++ (r.err.toList ++ (r.fb.toList ++ (leak ++ m.live)))))
          (dangL r.kids ++ []) := by
        rw [List.append_nil]
        exact h1.perm (by simp only [BinM.blks]; perms)
      obtain ⟨m2, e2, h3⟩ := closeFilesM_ok (fb := r.fb) (by intro b hb; simp [hb]) r.files m1 hfb h2
      refine ⟨m1, r, rfl, ?_⟩
      unfold closeM
      simp only [e2, Res.bind_ok]
      rw [freeDirM_ub h.ok h3 hd]
      rfl

mutual
/-- Specification: the pointers to names in an entry. -/
def names : EntryM → List Nat
  | .file _ nb _ => [nb]
  | .folder _ nb _ _ kids => nb :: namesL kids
/-- Specification: the pointers to names in a directory, as `binout_get_children` gives them to the user. -/
def namesL : List EntryM → List Nat
  | [] => []
  | e :: l => names e ++ namesL l
end

mutual
theorem names_blks (e : EntryM) (h : dang e = []) : ∀ b ∈ names e, b ∈ blks e := by
  cases e with
  | file n nb i => intro b hb; exact hb
  | folder n nb fr blk kids =>
    have hfr : fr = false := by cases fr <;> simp [dang] at h ⊢
    subst hfr
    have hk : dangL kids = [] := by simpa [dang] using h
    intro b hb
    rw [blks_folder]
    rcases List.mem_cons.1 hb with e | hb
    · subst e; simp
    · simp [tree, namesL_blks kids hk b hb]
theorem namesL_blks (l : List EntryM) (h : dangL l = []) : ∀ b ∈ namesL l, b ∈ blksL l := by
  cases l with
  | nil => intro b hb; exact hb
  | cons e l =>
    have hk : dang e = [] ∧ dangL l = [] := by simpa [dangL] using h
    intro b hb
    rw [namesL] at hb
    rw [blksL]
    rcases List.mem_append.1 hb with hb | hb
    · exact List.mem_append_left _ (names_blks e hk.1 b hb)
    · exact List.mem_append_right _ (namesL_blks l hk.2 b hb)
end

/-- C88: all names in the directory (the texts that `binout_get_children` gives to the user) can be read until the
binout is closed, and not any more afterwards. -/
theorem c88_names (zero : Bool) (fuel : Nat) (pattern : Bytes) (files : List (Bytes × Option Bytes)) (m : Mem)
    (hm : Valid m) (b : BinFile) (hb : binoutOpen fuel pattern files = .ok (some b)) (hr : releasedL b.kids = 0)
    (m1 : Mem) (r : BinM) (ho : openM zero fuel files m = .ok (some (m1, r))) (m2 : Mem) (hc : closeM m1 r = .ok (m2, {}))
    (n : Nat) (hn : n ∈ namesL r.kids) : m1.use n = .ok () ∧ m2.use n = .ub := by
  obtain ⟨m1', r', m2', lost, e1, e2, p1, e3, e4, p2, v, _⟩ := c88_close_partial zero fuel pattern files m hm b hb hr
  rw [ho] at e1
  simp only [Res.ok.injEq, Option.some.injEq, Prod.mk.injEq] at e1
  obtain ⟨rfl, rfl⟩ := e1
  rw [hc] at e3
  simp only [Res.ok.injEq, Prod.mk.injEq, and_true] at e3
  subst e3
  have hd : dangL r.kids = [] := by
    apply List.length_eq_zero_iff.1
    rw [dangL_len, e2]
    exact hr
  have hbk : n ∈ r.blks := by simp [BinM.blks, tree, namesL_blks _ hd n hn]
  have hnd : (r.blks ++ (lost ++ m.live)).Nodup := by
    refine p1.nodup_iff.1 ?_
    have h := openM_ok zero fuel pattern files hm.heap
    rw [hb, ho] at h
    cases h with
    | ok h =>
      cases h with
      | some h =>
        obtain ⟨leak, h1, _⟩ := h.heap
        exact h1.valid.1
  have hnot : n ∉ lost ++ m.live := fun hx => (List.nodup_append.1 hnd).2.2 n hbk n hx rfl
  refine ⟨?_, ?_⟩
  · unfold Mem.use
    rw [if_pos (p1.mem_iff.2 (List.mem_append_left _ hbk))]
  · unfold Mem.use
    rw [if_neg (fun hx => hnot (p2.mem_iff.1 hx))]

theorem LiveTree.released {kids : List Entry} (h : LiveTree kids) : releasedL kids = 0 := by
  induction h with
  | mk kids live sub ih =>
    have : ∀ l : List Entry, (∀ e ∈ l, e ∈ kids) → releasedL l = 0 := by
      intro l
      induction l with
      | nil => intro _; rfl
      | cons e l ihl =>
        intro hm
        rw [releasedL, ihl (fun x hx => hm x (by simp [hx]))]
        have he := hm e (by simp)
        cases e with
        | file n i => rfl
        | folder n fr ch =>
          have := live n fr ch he
          subst this
          rw [Dyna.BinoutMem.released, ih n false ch he]
          rfl
    exact this kids (fun _ h => h)

/-- Specification: open and close a binout `k` times; `none` if it is not opened within `fuel` steps. -/
def cycles (zero : Bool) (fuel : Nat) (files : List (Bytes × Option Bytes)) : Nat → Mem → Res (Option Mem)
  | 0, m => .ok (some m)
  | k + 1, m => do
    match ← openM zero fuel files m with
    | none => .ok none
    | some (m1, r) => do
      let m2 ← closeM m1 r
      cycles zero fuel files k m2.1

/-- C88 is violated for every binout as LS-DYNA writes it: opening and closing it `k` times loses exactly `k` blocks. -/
theorem c88_lost_each_time (files : List SrcFile) (h : GoodSet files) (hne : files ≠ []) :
    ∃ n, ∀ fuel, n ≤ fuel → ∀ (zero : Bool) (k : Nat) (m : Mem), Valid m →
      ∃ m' lost, cycles zero fuel (files.map (fun s => (s.name, some s.content))) k m = .ok (some m') ∧
        m'.live.Perm (lost ++ m.live) ∧ lost.length = k := by
  obtain ⟨n, hn⟩ := open_good files h hne
  refine ⟨n, fun fuel hf zero k => ?_⟩
  obtain ⟨kids, hb, hr⟩ := hn fuel hf []
  have h0 := LiveTree.released hr.live
  induction k with
  | zero => intro m hm; exact ⟨m, [], rfl, List.Perm.refl _, rfl⟩
  | succ k ih =>
    intro m hm
    obtain ⟨m1, r, m2, lost, e1, _, _, e3, _, p2, v, hl⟩ := c88_close_partial zero fuel [] _ m hm _ hb h0
    obtain ⟨m3, lost3, e4, p3, hl3⟩ := ih m2 v
    refine ⟨m3, lost3 ++ lost, ?_, ?_, ?_⟩
    · unfold cycles
      simp only [e1, e3, Res.bind_ok]
      exact e4
    · refine p3.trans ?_
      rw [List.append_assoc]
      exact List.Perm.append_left _ p2
    · rw [if_neg (by simp [hne])] at hl
      rw [List.length_append, hl3, hl]

/-! ## Concrete cases -/

/-- A file with the folder `/a/b` and the variable `b` in `/a`. -/
def clashFile : SrcFile where
  name := bs "binout0000"
  w := ⟨8, 8, 1⟩
  rs := [.cd (bs "/a/b"), .data 9 (bs "x") [1, 2, 3, 4], .cd (bs "/a"), .data 9 (bs "b") [5, 6, 7, 8]]

theorem clash_released : (match binoutOpen 10 [] [(clashFile.name, some clashFile.content)] with
    | .ok (some b) => releasedL b.kids
    | _ => 0) = 1 := by decide +kernel

/-- C88 is violated for a concrete file: closing it is undefined. -/
theorem c88_clash (zero : Bool) (m : Mem) (hm : Valid m) :
    ∃ m1 r, openM zero 10 [(clashFile.name, some clashFile.content)] m = .ok (some (m1, r)) ∧ closeM m1 r = .ub := by
  have h := clash_released
  generalize hb : binoutOpen 10 [] [(clashFile.name, some clashFile.content)] = y at h
  cases y with
  | ok o =>
    cases o with
    | none => cases h
    | some b => exact c88_name_of_folder zero 10 [] _ m hm b hb (by dsimp only at h; omega)
  | ub => cases h
  | err => cases h
  | abort => cases h

/-- The sample of C12 meets the hypotheses of `c88_lost_each_time`. -/
example : ∃ n, ∀ fuel, n ≤ fuel → ∀ (zero : Bool) (k : Nat) (m : Mem), Valid m →
    ∃ m' lost, cycles zero fuel [(sampleFile.name, some sampleFile.content)] k m = .ok (some m') ∧
      m'.live.Perm (lost ++ m.live) ∧ lost.length = k := c88_lost_each_time [sampleFile] sampleFile_good (by simp)

/-- An empty heap and one with blocks are heaps. -/
example : Valid {} ∧ Valid ⟨7, [3, 5]⟩ := by unfold Valid; decide

end Dyna.BinoutMem
