import Verif.BinoutLemmas
/-!
# Every variable of a directory satisfies a predicate
-/

namespace Dyna

/-- Every file entry anywhere in the tree satisfies `Q`. Part of the specification, models no code. -/
inductive AllFiles (Q : FileInfo → Prop) : List Entry → Prop
  | mk (kids : List Entry) (files : ∀ n i, Entry.file n i ∈ kids → Q i)
      (sub : ∀ n fr ch, Entry.folder n fr ch ∈ kids → AllFiles Q ch) : AllFiles Q kids

namespace AllFiles

variable {Q : FileInfo → Prop}

theorem file {kids} (h : AllFiles Q kids) {n i} (hm : Entry.file n i ∈ kids) : Q i := by
  cases h with | mk _ f _ => exact f _ _ hm

theorem child {kids} (h : AllFiles Q kids) {n fr ch} (hm : Entry.folder n fr ch ∈ kids) :
    AllFiles Q ch := by
  cases h with | mk _ _ s => exact s _ _ _ hm

theorem nil : AllFiles Q [] := ⟨[], by simp, by simp⟩

/-- The predicate for single entries. Part of the specification, models no code. -/
def EntryOk (Q : FileInfo → Prop) : Entry → Prop
  | .file _ i => Q i
  | .folder _ _ ch => AllFiles Q ch

theorem iff_forall {kids} : AllFiles Q kids ↔ ∀ e ∈ kids, EntryOk Q e := by
  constructor
  · intro h e he
    cases e with
    | file n i => exact h.file he
    | folder n fr ch => exact h.child he
  · intro h
    exact ⟨kids, fun n i hm => h _ hm, fun n fr ch hm => h _ hm⟩

theorem mono {Q' : FileInfo → Prop} (hq : ∀ i, Q i → Q' i) : ∀ {kids}, AllFiles Q kids →
    AllFiles Q' kids := by
  intro kids h
  induction h with
  | mk kids f s ih =>
    exact ⟨kids, fun n i hm => hq _ (f n i hm), fun n fr ch hm => ih n fr ch hm⟩

theorem insertAt {kids i e} (h : AllFiles Q kids) (he : EntryOk Q e) :
    AllFiles Q (Dyna.insertAt kids i e) := by
  rw [iff_forall] at *
  intro x hx
  rcases mem_insertAt.1 hx with rfl | hx
  · exact he
  · exact h x hx

theorem set {kids : List Entry} {i e} (h : AllFiles Q kids) (he : EntryOk Q e) :
    AllFiles Q (kids.set i e) := by
  rw [iff_forall] at *
  intro x hx
  rcases List.mem_or_eq_of_mem_set hx with hx | rfl
  · exact h x hx
  · exact he

theorem insertFolder (path : List Bytes) : ∀ (kids kids' : List Entry) (b : Bool),
    AllFiles Q kids → Dyna.insertFolder kids path = .ok (kids', b) → AllFiles Q kids' := by
  induction path with
  | nil => intro kids kids' b h hr; simp [Dyna.insertFolder] at hr; rw [← hr.1]; exact h
  | cons c cs ih =>
    intro kids kids' b h hr
    unfold Dyna.insertFolder at hr
    split at hr
    · rename_i idx hs
      split at hr
      · rename_i n fr ch he
        have hm := List.mem_of_getElem? he
        cases hc : Dyna.insertFolder ch cs with
        | ok p =>
          obtain ⟨ch', b'⟩ := p
          rw [hc] at hr
          simp at hr
          rw [← hr.1]
          exact h.set (ih ch ch' b' (h.child hm) hc)
        | err => rw [hc] at hr; simp at hr
        | ub => rw [hc] at hr; simp at hr
        | abort => rw [hc] at hr; simp at hr
      · simp at hr; rw [← hr.1]; exact h
      · simp at hr
    · rename_i idx hs
      cases hc : Dyna.insertFolder [] cs with
      | ok p =>
        obtain ⟨ch', b'⟩ := p
        rw [hc] at hr
        simp at hr
        rw [← hr.1]
        exact h.insertAt (ih [] ch' b' nil hc)
      | err => rw [hc] at hr; simp at hr
      | ub => rw [hc] at hr; simp at hr
      | abort => rw [hc] at hr; simp at hr
    · simp at hr
    · simp at hr
    · simp at hr

theorem insertFile {kids kids' : List Entry} {name info} (h : AllFiles Q kids) (hq : Q info)
    (hr : Dyna.insertFile kids name info = .ok kids') : AllFiles Q kids' := by
  unfold Dyna.insertFile at hr
  split at hr
  · split at hr
    · rename_i n fr ch he
      simp at hr; rw [← hr]
      exact h.set (h.child (List.mem_of_getElem? he))
    · simp at hr; rw [← hr]; exact h.set hq
    · simp at hr
  · simp at hr; rw [← hr]; exact h.insertAt hq
  · simp at hr
  · simp at hr
  · simp at hr

theorem insertFileAt (cur : List Bytes) {name info} (hq : Q info) : ∀ (kids kids' : List Entry),
    AllFiles Q kids → Dyna.insertFileAt kids cur name info = .ok kids' → AllFiles Q kids' := by
  induction cur with
  | nil => intro kids kids' h hr; exact h.insertFile hq hr
  | cons c cs ih =>
    intro kids kids' h hr
    unfold Dyna.insertFileAt at hr
    split at hr
    · rename_i n fr ch he
      have hm := (findEntry_some he).1
      cases hc : Dyna.insertFileAt ch cs name info with
      | ok ch' =>
        rw [hc] at hr; simp at hr; rw [← hr]
        rw [iff_forall] at *
        intro x hx
        simp only [replaceEntry, List.mem_map] at hx
        obtain ⟨y, hy, rfl⟩ := hx
        split
        · exact ih ch ch' (h _ hm) hc
        · exact h y hy
      | err => rw [hc] at hr; simp at hr
      | ub => rw [hc] at hr; simp at hr
      | abort => rw [hc] at hr; simp at hr
    · simp at hr

theorem folderGetFile (q : List Bytes) : ∀ (kids : List Entry) (i : FileInfo),
    AllFiles Q kids → Dyna.folderGetFile kids q = .ok (some i) → Q i := by
  induction q with
  | nil => intro kids i _ hr; simp [Dyna.folderGetFile] at hr
  | cons c cs ih =>
    intro kids i h hr
    unfold Dyna.folderGetFile at hr
    split at hr
    · simp at hr
    · split at hr
      · simp at hr
      · split at hr
        · simp at hr
        · rename_i he
          split at hr
          · simp at hr; rw [← hr]; exact h.file (List.mem_of_getElem? he)
          · simp at hr
        · rename_i he
          split at hr
          · simp at hr
          · exact ih _ _ (h.child (List.mem_of_getElem? he)) hr
      · simp at hr
      · simp at hr
      · simp at hr

theorem getFile {kids : List Entry} {path : Bytes} {i : FileInfo} (h : AllFiles Q kids)
    (hr : Dyna.getFile kids path = .ok (some i)) : Q i := by
  unfold Dyna.getFile at hr
  cases hp : pvNew path with
  | ok pv =>
    rw [hp] at hr
    simp only [Res.bind_ok] at hr
    split at hr
    · simp at hr
    · split at hr
      · simp at hr
      · cases hc : pvElems path with
        | ok cs =>
          rw [hc] at hr
          simp only [Res.bind_ok] at hr
          unfold dirGetFile at hr
          split at hr
          · simp at hr
          · split at hr
            · simp at hr
            · split at hr
              · simp at hr
              · split at hr
                · simp at hr
                · rename_i he
                  split at hr
                  · simp at hr
                  · split at hr
                    · simp at hr
                    · exact folderGetFile _ _ _ (h.child (List.mem_of_getElem? he)) hr
              · simp at hr
              · simp at hr
              · simp at hr
        | err => rw [hc] at hr; simp at hr
        | ub => rw [hc] at hr; simp at hr
        | abort => rw [hc] at hr; simp at hr
  | err => rw [hp] at hr; simp at hr
  | ub => rw [hp] at hr; simp at hr
  | abort => rw [hp] at hr; simp at hr

end AllFiles

/-- The effect of a record on the set of variables. -/
theorem applyRec_allFiles {Q : FileInfo → Prop} {fi : Nat} {s s' : PState} {r : Rec} {next : Nat}
    (h : AllFiles Q s.dir.kids)
    (hq : ∀ ty name size pos, r = .data ty name size pos → Q ⟨ty, size, fi % 256, pos⟩)
    (hr : applyRec fi s r next = .ok s') : AllFiles Q s'.dir.kids ∧ s'.pos = next := by
  cases r with
  | cd raw =>
    simp only [applyRec] at hr
    cases hc : changeDir s.curPath raw with
    | ok p =>
      obtain ⟨cur', t⟩ := p
      rw [hc] at hr
      simp only [Res.bind_ok] at hr
      cases t with
      | none => simp at hr; rw [← hr]; exact ⟨h, rfl⟩
      | some path =>
        simp only [dirStep] at hr
        cases hi : insertFolder s.dir.kids path with
        | ok p =>
          obtain ⟨kids', b⟩ := p
          rw [hi] at hr; simp at hr; rw [← hr]
          exact ⟨AllFiles.insertFolder _ _ _ _ h hi, rfl⟩
        | err => rw [hi] at hr; simp at hr
        | ub => rw [hi] at hr; simp at hr
        | abort => rw [hi] at hr; simp at hr
    | err => rw [hc] at hr; simp at hr
    | ub => rw [hc] at hr; simp at hr
    | abort => rw [hc] at hr; simp at hr
  | data ty name size pos =>
    simp only [applyRec, dirStep] at hr
    cases hcur : s.dir.cur with
    | none => rw [hcur] at hr; simp at hr
    | some cur =>
      rw [hcur] at hr
      simp only at hr
      cases hi : insertFileAt s.dir.kids cur name ⟨ty, size, fi % 256, pos⟩ with
      | ok kids' =>
        rw [hi] at hr; simp at hr; rw [← hr]
        exact ⟨AllFiles.insertFileAt cur (hq _ _ _ _ rfl) _ _ h hi, rfl⟩
      | err => rw [hi] at hr; simp at hr
      | ub => rw [hi] at hr; simp at hr
      | abort => rw [hi] at hr; simp at hr
  | other c => simp [applyRec] at hr; rw [← hr]; exact ⟨h, rfl⟩

end Dyna
