import Verif.Props.BinoutWhy
import Verif.Props.BinoutSession
/-!
# C97: the first bad time step, in terms of the directory and the files
-/

namespace Dyna

open BinoutCalls

/-- Specification: following the positions `p` from a folder with these entries leads to a file, and the folder of that file has the file
`info` under the given name. -/
inductive HasVar (name : Bytes) : List Entry → List Nat → FileInfo → Prop
  | last {kids : List Entry} {i : Nat} {m : Bytes} {inf info : FileInfo} : kids[i]? = some (.file m inf) →
      .file name info ∈ kids → HasVar name kids [i] info
  | down {kids : List Entry} {i : Nat} {m : Bytes} {fr : Bool} {ch : List Entry} {p : List Nat} {info : FileInfo} :
      kids[i]? = some (.folder m fr ch) → HasVar name ch p info → HasVar name kids (i :: p) info

/-- Specification: the time step has the variable, at the same place as the first time step (the order of the files in its folder does not
matter). -/
def StepHas (name : Bytes) (p : List Nat) (step : Entry) (info : FileInfo) : Prop :=
  ∃ n fr ch, step = .folder n fr ch ∧ HasVar name ch p info

/-- Specification: these are the bytes of the variable, and the file has them. -/
def StoredAt (files : List (Option Bytes)) (info : FileInfo) (data : Bytes) : Prop :=
  ∃ c, files[info.fileIndex]? = some (some c) ∧ info.filePos < 2 ^ 63 ∧ info.size ≠ 0 ∧ info.filePos + info.size ≤ c.length ∧
    data = (c.drop info.filePos).take info.size

/-- Specification: a time step that is an ordinary folder. -/
def GoodStep (step : Entry) : Prop :=
  ∃ n fr ch, step = .folder n fr ch ∧ SortedTree ch ∧ LiveTree ch ∧ AsciiTree ch

/-- Specification: what is wrong with the first bad time step and the text for it. -/
def FirstBad (files : List (Option Bytes)) (path name : Bytes) (p : List Nat) (steps : List Entry) (text : Bytes) : Prop :=
  ∃ (k : Nat) (d : Entry), steps[k]? = some d ∧
    (∀ j : Nat, j < k → ∃ e info data, steps[j]? = some e ∧ StepHas name p e info ∧ StoredAt files info data) ∧
    (((¬ ∃ info, StepHas name p d info) ∧
      text = bs "The structure of variable \"" ++ path ++ bs "\" is invalid. Time Step " ++ bs (toString k) ++
        bs " differs from the first time step") ∨
     ∃ info, StepHas name p d info ∧ (¬ ∃ data, StoredAt files info data) ∧
      ((2 ^ 63 ≤ info.filePos ∧ text = bs "Failed to seek to the data of \"" ++ path ++ bs "\"") ∨
       (info.filePos < 2 ^ 63 ∧
        text = bs "Failed to read time step " ++ bs (toString k) ++ bs " of \"" ++ path ++ bs "\"")))

theorem entry_unique {kids : List Entry} (hs : SortedTree kids) {a b : Entry} (ha : a ∈ kids) (hb : b ∈ kids)
    (h : a.name = b.name) : a = b := by
  have h1 := findEntry_mem hs.sorted ha
  have h2 := findEntry_mem hs.sorted hb
  rw [h, h2] at h1
  exact (Option.some.inj h1).symm

theorem openTimedPath_has {v : Bytes} (hv : ∀ c ∈ v, c < 256) : ∀ (p : List Nat) (kids : List Entry), SortedTree kids →
    LiveTree kids → AsciiTree kids → ∀ r, openTimedPath kids (some v) p = .ok r →
    (∀ n info, r = some (n, info) → HasVar v kids p info) ∧ (r = none → ¬ ∃ info, HasVar v kids p info) := by
  intro p
  induction p with
  | nil =>
    intro kids _ _ _ r h
    simp only [openTimedPath, Res.ok.injEq] at h
    subst h
    exact ⟨fun _ _ h => (by cases h), fun _ => by rintro ⟨info, h⟩; cases h⟩
  | cons i p ih =>
    intro kids hs hl ha r h
    rw [openTimedPath] at h
    by_cases hlen : kids.length < i + 1
    · rw [if_pos hlen] at h
      simp only [Res.ok.injEq] at h
      subst h
      refine ⟨fun _ _ h => (by cases h), fun _ => ?_⟩
      rintro ⟨info, h⟩
      have hn : kids[i]? = none := List.getElem?_eq_none (by omega)
      cases h with
      | last h1 _ => rw [hn] at h1; cases h1
      | down h1 _ => rw [hn] at h1; cases h1
    rw [if_neg hlen] at h
    have hi : i < kids.length := by omega
    rw [List.getElem?_eq_getElem hi] at h
    have hget : kids[i]? = some kids[i] := List.getElem?_eq_getElem hi
    have hm := List.getElem_mem hi
    have hne : kids ≠ [] := by intro h; rw [h] at hi; simp at hi
    generalize kids[i] = e at h hget hm
    cases e with
    | folder n fr ch =>
      dsimp only at h
      by_cases hp : p = []
      · rw [if_pos hp] at h
        simp only [Res.ok.injEq] at h
        subst h
        subst hp
        refine ⟨fun _ _ h => (by cases h), fun _ => ?_⟩
        rintro ⟨info, h⟩
        cases h with
        | last h1 _ => rw [hget] at h1; cases h1
        | down h1 h2 => cases h2
      · rw [if_neg hp] at h
        obtain ⟨i1, i2⟩ := ih ch (hs.sub hm) (hl.sub hm).2 (ha.sub hm) r h
        refine ⟨fun n info hr => .down hget (i1 n info hr), fun hr => ?_⟩
        rintro ⟨info, h⟩
        cases h with
        | last h1 _ => exact hp rfl
        | down h1 h2 =>
          rw [hget] at h1
          simp only [Option.some.injEq, Entry.folder.injEq] at h1
          obtain ⟨_, _, rfl⟩ := h1
          exact i2 hr ⟨info, h2⟩
    | file n inf =>
      dsimp only at h
      by_cases hp : p = []
      · rw [if_neg (by simpa using hp)] at h
        subst hp
        by_cases hc : strcmp n v = 0
        · rw [if_neg (by simpa using hc)] at h
          have := (strcmp_eq_zero n v).1 hc
          subst this
          simp only [Res.ok.injEq] at h
          subst h
          refine ⟨fun n' info hr => ?_, fun hr => by cases hr⟩
          simp only [Option.some.injEq, Prod.mk.injEq] at hr
          obtain ⟨_, rfl⟩ := hr
          exact .last hget hm
        · rw [if_pos hc] at h
          rcases searchLookup_spec v hs.sorted (fun e he => hl.nameOk he) (fun e he => ha.names he) hv hne with
            ⟨j, e, h1, h2, h3⟩ | ⟨h1, h2⟩
          · rw [h1] at h
            simp only [h2] at h
            cases e with
            | folder _ _ _ => cases h
            | file n' info' =>
              simp only [Res.ok.injEq] at h
              subst h
              have h4 := findEntry_some h3
              refine ⟨fun n'' info hr => ?_, fun hr => by cases hr⟩
              simp only [Option.some.injEq, Prod.mk.injEq] at hr
              obtain ⟨_, rfl⟩ := hr
              have hname : n' = v := h4.2
              rw [hname] at h4
              exact .last hget h4.1
          · rw [h1] at h
            simp only [Res.ok.injEq] at h
            subst h
            refine ⟨fun _ _ hr => (by cases hr), fun _ => ?_⟩
            rintro ⟨info, h⟩
            cases h with
            | last _ h5 =>
              have := findEntry_mem hs.sorted h5
              simp only [Entry.name] at this
              rw [h2] at this
              cases this
            | down h5 _ => rw [hget] at h5; cases h5
      · rw [if_pos hp] at h
        simp only [Res.ok.injEq] at h
        subst h
        refine ⟨fun _ _ h => (by cases h), fun _ => ?_⟩
        rintro ⟨info, h⟩
        cases h with
        | last _ _ => exact hp rfl
        | down h5 _ => rw [hget] at h5; cases h5

theorem stored_of_ok {files : List (Option Bytes)} {info : FileInfo} {data : Bytes} (h : readInfo files info = .ok data) :
    StoredAt files info data := by
  obtain ⟨c, h1, h2, h3⟩ := readInfo_ok_inv h
  unfold freadObj at h3
  split at h3
  · cases h3
  rename_i hz
  split at h3
  · rename_i hle
    exact ⟨c, h1, h2, hz, hle, (Option.some.inj h3).symm⟩
  · cases h3

theorem not_stored_of_err {files : List (Option Bytes)} {info : FileInfo} (h : readInfo files info = .err) :
    ¬ ∃ data, StoredAt files info data := by
  rintro ⟨data, c, h1, h2, h3, h4, -⟩
  unfold readInfo at h
  rw [h1] at h
  simp only at h
  rw [if_pos (show info.filePos < u64 / 2 from h2)] at h
  unfold freadObj at h
  rw [if_neg h3, if_pos h4] at h
  cases h

/-- C97, the time steps, in terms of the directory: if the search finds the variable in the first time step but there are no data, the text
says that the variable has no values, or it tells the number of the first time step that does not have the variable at this place, or whose
bytes are not in the file. `steps` are the folders of the time steps, `p` the positions that lead to the variable in the first one. -/
theorem c97_first_bad_step (b b' : BinFile) (path : Bytes) (ty : Nat) (ds steps : List Entry) (p : List Nat) (name : Bytes)
    (info : FileInfo) (hs : searchTimed b.kids path = .ok (ds, p)) (ht : timedHead ds p = .ok (steps, name, info))
    (hgood : ∀ e ∈ steps, GoodStep e) (hname : ∀ c ∈ name, c < 256)
    (h : sessTimed b path ty = .ok (none, b')) :
    ∃ text, b'.error = some text ∧
      (info.size / typeSize ty = 0 → text = bs "The files of \"" ++ path ++ bs "\" are empty") ∧
      (info.size / typeSize ty ≠ 0 → FirstBad b.files path name p steps text) := by
  obtain ⟨text, h1, h2, h3⟩ := c97_steps b b' path ty ds steps p name info hs ht h
  have has : ∀ e ∈ steps, ∀ r, openTimedEntry e (some name) p = .ok r →
      (∀ n info, r = some (n, info) → StepHas name p e info) ∧ (r = none → ¬ ∃ info, StepHas name p e info) := by
    intro e he r hr
    obtain ⟨n, fr, ch, rfl, g1, g2, g3⟩ := hgood e he
    obtain ⟨a1, a2⟩ := openTimedPath_has hname p ch g1 g2 g3 r (by simpa [openTimedEntry] using hr)
    refine ⟨fun n' info' hr' => ⟨n, fr, ch, rfl, a1 n' info' hr'⟩, fun hr' => ?_⟩
    rintro ⟨info', n', fr', ch', hee, hh⟩
    simp only [Entry.folder.injEq] at hee
    obtain ⟨_, _, rfl⟩ := hee
    exact a2 hr' ⟨info', hh⟩
  refine ⟨text, h1, h2, fun hz => ?_⟩
  obtain ⟨k, d, k1, k2, k3⟩ := h3 hz
  simp only [Nat.zero_add] at k3
  refine ⟨k, d, k1, ?_, ?_⟩
  · intro j hj
    obtain ⟨e, n, inf, data, e1, e2, e3⟩ := k2 j hj
    exact ⟨e, inf, data, e1, (has e (List.mem_of_getElem? e1) _ e2).1 n inf rfl, stored_of_ok e3⟩
  · have hd := has d (List.mem_of_getElem? k1)
    rcases k3 with ⟨o, ho⟩ | ⟨n, inf, o1, o2, o3⟩
    · exact .inl ⟨(hd _ o).2 rfl, ho⟩
    · exact .inr ⟨inf, (hd _ o1).1 n inf rfl, not_stored_of_err o2, o3⟩

/-- A file with two time steps, of which the second one lacks the variable. -/
def lackKids : BinFile :=
  ⟨[.folder (bs "n") false [.folder (bs "d000001") false [.file (bs "x") ⟨9, 4, 0, 0⟩], .folder (bs "d000002") false []]],
    [some [1, 2, 3, 4]], none⟩

/-- Auxiliary: a folder with at most one file. -/
def simpleStep : Entry → Bool
  | .folder _ _ [] => true
  | .folder _ _ [.file n _] => n.all fun c => decide (c < 128)
  | _ => false

theorem simpleStep_good {e : Entry} (h : simpleStep e = true) : GoodStep e := by
  match e, h with
  | .folder n fr [], _ => exact ⟨n, fr, [], rfl, .nil, .nil, .nil⟩
  | .folder n fr [.file m i], h =>
    refine ⟨n, fr, _, rfl, ⟨_, List.pairwise_singleton _ _, by simp⟩, LiveTree.mk' (by simp), ⟨_, ?_, by simp⟩⟩
    intro e he
    simp only [List.mem_singleton] at he
    subst he
    simpa [simpleStep, Ascii, Entry.name] using h

/-- Auxiliary: checks the hypotheses of `c97_first_bad_step` for `lackKids`. -/
def lackCheck : Bool :=
  match searchTimed lackKids.kids (bs "/n/x") with
  | .ok (ds, p) =>
    match timedHead ds p with
    | .ok (steps, name, info) => steps.all simpleStep && name.all (fun c => decide (c < 256)) && info.size / typeSize 9 != 0 &&
        (match sessTimed lackKids (bs "/n/x") 9 with | .ok (none, _) => true | _ => false)
    | _ => false
  | _ => false

/-- The hypotheses of `c97_first_bad_step` are met. -/
theorem c97_first_bad_step_sample : ∃ b' ds steps p name info, searchTimed lackKids.kids (bs "/n/x") = .ok (ds, p) ∧
    timedHead ds p = .ok (steps, name, info) ∧ (∀ e ∈ steps, GoodStep e) ∧ (∀ c ∈ name, c < 256) ∧
    sessTimed lackKids (bs "/n/x") 9 = .ok (none, b') ∧ FirstBad lackKids.files (bs "/n/x") name p steps (b'.error.getD []) := by
  have h : lackCheck = true := by decide +kernel
  unfold lackCheck at h
  split at h
  · rename_i ds p h1
    split at h
    · rename_i steps name info h2
      simp only [Bool.and_eq_true] at h
      obtain ⟨⟨⟨h3, h4⟩, h5⟩, h6⟩ := h
      split at h6
      · rename_i b' h7
        have hg : ∀ e ∈ steps, GoodStep e := fun e he => simpleStep_good (List.all_eq_true.mp h3 e he)
        have hn : ∀ c ∈ name, c < 256 := fun c hc => by simpa using List.all_eq_true.mp h4 c hc
        obtain ⟨t, t1, -, t3⟩ := c97_first_bad_step lackKids b' (bs "/n/x") 9 ds steps p name info h1 h2 hg hn h7
        refine ⟨b', ds, steps, p, name, info, h1, h2, hg, hn, h7, ?_⟩
        rw [t1]
        exact t3 (by simpa using h5)
      · cases h6
    · cases h
  · cases h

end Dyna
