import Verif.D3PlotOpen
/-!
# What holds for every file that has been opened
-/

namespace Dyna.D3

/-! ## The buffer stays the same -/

/-- The files and the size of a word stay the same. Part of the specification, models no code. -/
def Same (s s' : S) : Prop := s'.b.files = s.b.files ∧ s'.b.ws = s.b.ws

theorem Same.refl (s : S) : Same s s := ⟨rfl, rfl⟩
theorem Same.trans {a b c : S} (h : Same a b) (h' : Same b c) : Same a c :=
  ⟨h'.1.trans h.1, h'.2.trans h.2⟩

/-- A step that does not change the files. Part of the specification, models no code. -/
def Frame {α : Type} (m : M α) : Prop := ∀ s a s', m s = .ok (a, s') → Same s s'

theorem frame_pure {α : Type} (a : α) : Frame (pure a : M α) := by
  intro s x s' h; cases h; exact Same.refl s
theorem frame_bind {α β : Type} {m : M α} {f : α → M β} (hm : Frame m) (hf : ∀ a, Frame (f a)) :
    Frame (m >>= f) := by
  intro s x s' h
  obtain ⟨a, s1, e1, e2⟩ := bind_inv h
  exact (hm _ _ _ e1).trans (hf _ _ _ _ e2)
theorem frame_fail {α : Type} : Frame (fail : M α) := by intro s x s' h; cases h
theorem frame_failClose {α : Type} : Frame (failClose : M α) := by
  intro s x s' h
  unfold failClose at h
  split at h <;> cases h
theorem frame_undef {α : Type} : Frame (undef : M α) := by intro s x s' h; cases h
theorem frame_ite {α : Type} {c : Prop} [Decidable c] {m m' : M α} (h : Frame m) (h' : Frame m') :
    Frame (if c then m else m') := by split <;> assumption

theorem seek_same (b : Buf) (w : Nat) : (seek b w).1.files = b.files ∧ (seek b w).1.ws = b.ws := by
  unfold seek; split <;> exact ⟨rfl, rfl⟩

theorem frame_rdBytes (n : Nat) : Frame (rdBytes n) := by
  intro s x s' h
  unfold rdBytes readWords at h
  repeat' split at h
  all_goals (first | (cases h; done) | skip)
  all_goals
    rename_i e
    repeat' split at e
    all_goals (cases e; try (cases h; exact ⟨rfl, rfl⟩))

theorem frame_rd : Frame rd := frame_bind (frame_rdBytes 1) fun _ => frame_pure _

theorem frame_rdSigned : Frame rdSigned := by
  intro s x s' h
  unfold rdSigned at h
  split at h <;> cases h
  rename_i e
  exact frame_rd _ _ _ e

theorem skipWords_same {b b' : Buf} {p p' : Ptr} {n : Nat} (h : skipWords b p n = .ok (b', p')) :
    b'.files = b.files ∧ b'.ws = b.ws := by
  unfold skipWords at h
  split at h
  · cases h; exact ⟨rfl, rfl⟩
  · split at h
    · cases h; exact ⟨rfl, rfl⟩
    · rename_i q _
      have h2 := seek_same b (q.word + n)
      injection h with h
      rw [h] at h2
      exact h2

theorem frame_skip (n : Nat) : Frame (skip n) := by
  intro s x s' h
  unfold skip at h
  split at h <;> cases h
  rename_i e
  exact skipWords_same e

theorem frame_skipB (n : Nat) : Frame (skipB n) := fun s x s' h => frame_skip _ s x s' h
theorem frame_skipIf (c : Prop) [Decidable c] (n : Nat) : Frame (skipIf c n) :=
  frame_ite (frame_skip n) (frame_pure _)
theorem frame_hasErr : Frame hasErr := by intro s x s' h; cases h; exact Same.refl s
theorem frame_clearErr : Frame clearErr := by intro s x s' h; cases h; exact ⟨rfl, rfl⟩
theorem frame_curWord : Frame curWord := by intro s x s' h; cases h; exact Same.refl s
theorem frame_wordSize : Frame wordSize := by intro s x s' h; cases h; exact Same.refl s
theorem frame_toNextFile : Frame toNextFile := by
  intro s x s' h
  unfold toNextFile at h
  split at h <;> cases h
  exact ⟨rfl, rfl⟩

/-- Solves that a step does not change the files. -/
macro "frame" : tactic => `(tactic| repeat' (first
  | assumption
  | exact frame_rd
  | exact frame_rdSigned
  | exact frame_rdBytes _
  | exact frame_skip _
  | exact frame_skipB _
  | exact frame_skipIf _ _
  | exact frame_hasErr
  | exact frame_clearErr
  | exact frame_curWord
  | exact frame_wordSize
  | exact frame_toNextFile
  | exact frame_fail
  | exact frame_failClose
  | exact frame_undef
  | exact frame_pure _
  | apply frame_ite
  | apply frame_bind
  | intro _))

theorem frame_readRaw : Frame readRaw := by unfold readRaw; frame
theorem frame_skipParts : ∀ n, Frame (skipParts n)
  | 0 => frame_pure _
  | n + 1 => frame_bind (frame_skip _) fun _ => frame_skipParts n
theorem frame_readExtra (n : Nat) : Frame (readExtra n) := by
  unfold readExtra
  have := frame_skipParts
  repeat' (first
    | exact frame_skipParts _
    | exact frame_rd
    | exact frame_skip _
    | exact frame_pure _
    | apply frame_ite
    | apply frame_bind
    | intro _)
theorem frame_readGeometry (c : Cda) (d : Ptrs) : Frame (readGeometry c d) := by
  unfold readGeometry; frame
theorem frame_readUserIds (c : Cda) (d : Ptrs) : Frame (readUserIds c d) := by
  unfold readUserIds; frame
theorem frame_readExtraConnectivity (c : Cda) : Frame (readExtraConnectivity c) := by
  unfold readExtraConnectivity; frame
theorem frame_readAdapted (c : Cda) : Frame (readAdapted c) := by
  unfold readAdapted; frame
theorem frame_readHeader : ∀ (fuel : Nat) (d : Ptrs), Frame (readHeader d fuel) := by
  intro fuel
  induction fuel with
  | zero => intro d; exact frame_fail
  | succ n ih =>
    intro d
    unfold readHeader
    have h1 := ih d
    repeat' (first
      | exact ih _
      | exact frame_rd
      | exact frame_rdBytes _
      | exact frame_skipB _
      | exact frame_hasErr
      | exact frame_curWord
      | exact frame_wordSize
      | exact frame_fail
      | exact frame_pure _
      | apply frame_ite
      | apply frame_bind
      | intro _)
theorem frame_skipAll : ∀ l, Frame (skipAll l)
  | [] => frame_pure _
  | _ :: rest => frame_bind (frame_skip _) fun _ => frame_skipAll rest
theorem frame_orStop (d : Ptrs) {m : M (Ptrs × Found)} (h : Frame m) : Frame (orStop d m) := by
  unfold orStop; frame

macro "frame2" : tactic => `(tactic| repeat' (first
  | exact frame_rd
  | exact frame_rdBytes _
  | exact frame_skip _
  | exact frame_skipIf _ _
  | exact frame_skipAll _
  | exact frame_hasErr
  | exact frame_curWord
  | exact frame_wordSize
  | exact frame_fail
  | exact frame_pure _
  | apply frame_orStop
  | apply frame_ite
  | apply frame_bind
  | intro _))

theorem frame_readElements (c : Cda) (first : Bool) (start : Nat) (d : Ptrs) :
    Frame (readElements c first start d) := by unfold readElements; frame2
theorem frame_readNodes (c : Cda) (first : Bool) (start : Nat) (d : Ptrs) :
    Frame (readNodes c first start d) := by
  unfold readNodes
  have := fun d => frame_readElements c first start d
  repeat' (first
  | exact frame_readElements _ _ _ _
  | exact frame_skip _
  | exact frame_skipIf _ _
  | exact frame_curWord
  | exact frame_fail
  | exact frame_pure _
  | apply frame_orStop
  | apply frame_ite
  | apply frame_bind
  | intro _)
theorem frame_readState (c : Cda) (n : Nat) (first : Bool) (d : Ptrs) :
    Frame (readState c n first d) := by
  unfold readState
  repeat' (first
  | exact frame_readNodes _ _ _ _
  | exact frame_rdBytes _
  | exact frame_hasErr
  | exact frame_wordSize
  | exact frame_skipAll _
  | exact frame_skip _
  | exact frame_curWord
  | exact frame_fail
  | exact frame_pure _
  | apply frame_orStop
  | apply frame_ite
  | apply frame_bind
  | intro _)
theorem frame_readStates (c : Cda) (n : Nat) : ∀ (fuel : Nat) (d : Ptrs) (l : List Nat),
    Frame (readStates c n fuel d l) := by
  intro fuel
  induction fuel with
  | zero => intro d l; exact frame_fail
  | succ k ih =>
    intro d l
    unfold readStates
    apply frame_bind (frame_readState _ _ _ _)
    rintro ⟨d', f⟩
    cases f with
    | finish => exact frame_pure _
    | state st => exact ih _ _
    | eof =>
      apply frame_bind frame_toNextFile
      intro x
      exact frame_ite (ih _ _) (frame_pure _)
theorem frame_readBody (fuel : Nat) (c : Cda) : Frame (readBody fuel c) := by
  unfold readBody
  repeat' (first
  | exact frame_readGeometry _ _
  | exact frame_readUserIds _ _
  | exact frame_readExtraConnectivity _
  | exact frame_readAdapted _
  | exact frame_readHeader _ _
  | exact frame_readStates _ _ _ _ _
  | exact frame_rdBytes _
  | exact frame_wordSize
  | exact frame_toNextFile
  | exact frame_failClose
  | exact frame_pure _
  | apply frame_ite
  | apply frame_bind
  | intro _)

/-! ## No error is left -/

theorem orStop_err {d : Ptrs} {m : M (Ptrs × Found)} (h : ∀ s a s', s.b.err = false → m s = .ok (a, s') → s'.b.err = false)
    {s s' : S} {a : Ptrs × Found} (e : orStop d m s = .ok (a, s')) : s'.b.err = false := by
  unfold orStop at e
  obtain ⟨x, t, e1, e2⟩ := bind_inv e
  cases e1
  by_cases hx : s.b.err = true
  · rw [if_pos hx] at e2
    obtain ⟨y, t', e3, e4⟩ := bind_inv e2
    cases e3
    cases e4
    rfl
  · rw [if_neg hx] at e2
    exact h _ _ _ (by simpa using hx) e2

theorem orStop_err' {d : Ptrs} {m : M (Ptrs × Found)} (h : ∀ s a s', m s = .ok (a, s') → s'.b.err = false)
    {s s' : S} {a : Ptrs × Found} (e : orStop d m s = .ok (a, s')) : s'.b.err = false :=
  orStop_err (fun s a s' _ => h s a s') e

theorem readElements_err {c : Cda} {first : Bool} {start : Nat} {d : Ptrs} {s s' : S} {a : Ptrs × Found}
    (e : readElements c first start d s = .ok (a, s')) : s'.b.err = false := by
  unfold readElements at e
  obtain ⟨_, t, _, e⟩ := bind_inv e
  refine orStop_err' ?_ e
  intro s a s' e
  iterate 8 obtain ⟨_, _, _, e⟩ := bind_inv e
  refine orStop_err' ?_ e
  intro s a s' e
  obtain ⟨_, _, _, e⟩ := bind_inv e
  split at e
  · cases e
  · obtain ⟨_, _, _, e⟩ := bind_inv e
    refine orStop_err ?_ e
    intro s a s' h e
    cases e
    exact h

theorem readNodes_err {c : Cda} {first : Bool} {start : Nat} {d : Ptrs} {s s' : S} {a : Ptrs × Found}
    (e : readNodes c first start d s = .ok (a, s')) : s'.b.err = false := by
  unfold readNodes at e
  iterate 6 obtain ⟨_, _, _, e⟩ := bind_inv e
  refine orStop_err' ?_ e
  intro s a s' e
  obtain ⟨_, _, _, e⟩ := bind_inv e
  split at e
  · cases e
  · exact readElements_err e

theorem readState_err {c : Cda} {n : Nat} {first : Bool} {d : Ptrs} {s s' : S} {a : Ptrs × Found}
    (e : readState c n first d s = .ok (a, s')) : s'.b.err = false := by
  unfold readState at e
  iterate 3 obtain ⟨_, _, _, e⟩ := bind_inv e
  obtain ⟨x, t, e1, e⟩ := bind_inv e
  cases e1
  split at e
  · cases e
  · rename_i hx
    split at e
    · cases e
      simpa using hx
    · iterate 2 obtain ⟨_, _, _, e⟩ := bind_inv e
      refine orStop_err' ?_ e
      intro s a s' e
      obtain ⟨_, _, _, e⟩ := bind_inv e
      refine orStop_err' ?_ e
      intro s a s' e
      obtain ⟨_, _, _, e⟩ := bind_inv e
      split at e
      · cases e
      · exact readNodes_err e

theorem toNextFile_b {s s' : S} {x : Bool} (e : toNextFile s = .ok (x, s')) : s'.b = s.b := by
  unfold toNextFile at e
  split at e <;> cases e
  rfl

theorem readStates_err {c : Cda} {n : Nat} : ∀ (fuel : Nat) {d : Ptrs} {l : List Nat} {s s' : S}
    {a : Ptrs × List Nat}, readStates c n fuel d l s = .ok (a, s') → s'.b.err = false := by
  intro fuel
  induction fuel with
  | zero => intro d l s s' a e; cases e
  | succ k ih =>
    intro d l s s' a e
    unfold readStates at e
    obtain ⟨⟨d', f⟩, t, e1, e⟩ := bind_inv e
    have h := readState_err e1
    cases f with
    | finish => cases e; exact h
    | state st => exact ih e
    | eof =>
      obtain ⟨x, t', e2, e⟩ := bind_inv e
      have hb := toNextFile_b e2
      split at e
      · exact ih e
      · cases e
        rw [hb]
        exact h

/-! ## The pointers into the geometry are set once -/

/-- The pointers into the geometry are the same. Part of the specification, models no code. -/
def SameGeo (d d' : Ptrs) : Prop :=
  d'.nodeCoords = d.nodeCoords ∧ d'.el8Connect = d.el8Connect ∧ d'.eltConnect = d.eltConnect ∧
    d'.el2Connect = d.el2Connect ∧ d'.el4Connect = d.el4Connect

theorem SameGeo.refl (d : Ptrs) : SameGeo d d := ⟨rfl, rfl, rfl, rfl, rfl⟩
theorem SameGeo.trans {a b c : Ptrs} (h : SameGeo a b) (h' : SameGeo b c) : SameGeo a c :=
  ⟨h'.1.trans h.1, h'.2.1.trans h.2.1, h'.2.2.1.trans h.2.2.1, h'.2.2.2.1.trans h.2.2.2.1,
    h'.2.2.2.2.trans h.2.2.2.2⟩

theorem ite_fail_inv {α : Type} {c : Prop} [Decidable c] {m : M α} {s : S} {r : α × S}
    (h : (if c then fail else m) s = .ok r) : ¬ c ∧ m s = .ok r := by
  by_cases hc : c
  · rw [if_pos hc] at h; cases h
  · rw [if_neg hc] at h; exact ⟨hc, h⟩

theorem ite_failClose_inv {α : Type} {c : Prop} [Decidable c] {m : M α} {s : S} {r : α × S}
    (h : (if c then failClose else m) s = .ok r) : ¬ c ∧ m s = .ok r := by
  by_cases hc : c
  · rw [if_pos hc] at h
    unfold failClose at h
    split at h <;> cases h
  · rw [if_neg hc] at h; exact ⟨hc, h⟩

theorem readUserIds_geo {c : Cda} {d : Ptrs} {s s' : S} {a : Ptrs × Nat}
    (e : readUserIds c d s = .ok (a, s')) : SameGeo d a.1 := by
  unfold readUserIds at e
  by_cases hn : c.raw.narbs = 0
  · rw [if_pos hn] at e; cases e; exact SameGeo.refl d
  · rw [if_neg hn] at e
    iterate 3 obtain ⟨_, _, _, e⟩ := bind_inv e
    replace e := (ite_fail_inv e).2
    iterate 7 obtain ⟨_, _, _, e⟩ := bind_inv e
    replace e := (ite_fail_inv e).2
    replace e := (ite_fail_inv e).2
    replace e := (ite_fail_inv e).2
    replace e := (ite_fail_inv e).2
    replace e := (ite_fail_inv e).2
    replace e := (ite_fail_inv e).2
    iterate 2 obtain ⟨_, _, _, e⟩ := bind_inv e
    replace e := (ite_fail_inv e).2
    iterate 3 obtain ⟨_, _, _, e⟩ := bind_inv e
    replace e := (ite_fail_inv e).2
    iterate 1 obtain ⟨_, _, _, e⟩ := bind_inv e
    replace e := (ite_fail_inv e).2
    cases e
    exact ⟨rfl, rfl, rfl, rfl, rfl⟩

theorem readHeader_geo : ∀ (fuel : Nat) {d d' : Ptrs} {s s' : S},
    readHeader d fuel s = .ok (d', s') → SameGeo d d' := by
  intro fuel
  induction fuel with
  | zero => intro d d' s s' e; cases e
  | succ n ih =>
    intro d d' s s' e
    unfold readHeader at e
    iterate 3 obtain ⟨_, _, _, e⟩ := bind_inv e
    split at e
    · cases e
    split at e
    · iterate 2 obtain ⟨_, _, _, e⟩ := bind_inv e
      split at e
      · cases e
      · exact ih e
    split at e
    · iterate 2 obtain ⟨_, _, _, e⟩ := bind_inv e
      split at e
      · cases e
      iterate 3 obtain ⟨_, _, _, e⟩ := bind_inv e
      split at e
      · cases e
      · refine SameGeo.trans ?_ (ih e)
        exact ⟨rfl, rfl, rfl, rfl, rfl⟩
    split at e
    · iterate 2 obtain ⟨_, _, _, e⟩ := bind_inv e
      split at e
      · cases e
      iterate 2 obtain ⟨_, _, _, e⟩ := bind_inv e
      split at e
      · cases e
      · exact ih e
    split at e
    · iterate 2 obtain ⟨_, _, _, e⟩ := bind_inv e
      split at e
      · cases e
      iterate 2 obtain ⟨_, _, _, e⟩ := bind_inv e
      split at e
      · cases e
      · exact ih e
    split at e
    · cases e; exact SameGeo.refl _
    · cases e

theorem orStop_geo {d0 d : Ptrs} (hd : SameGeo d0 d) {m : M (Ptrs × Found)}
    (h : ∀ s a s', m s = .ok (a, s') → SameGeo d0 a.1)
    {s s' : S} {a : Ptrs × Found} (e : orStop d m s = .ok (a, s')) : SameGeo d0 a.1 := by
  unfold orStop at e
  obtain ⟨x, t, e1, e2⟩ := bind_inv e
  split at e2
  · obtain ⟨y, t', e3, e4⟩ := bind_inv e2
    cases e4
    exact hd
  · exact h _ _ _ e2

theorem setElements_geo (first : Bool) (x y z w start : Nat) (d : Ptrs) :
    SameGeo d (setThick first x start (setShell first y start (setBeam first z start
      (setSolid first w start d)))) := by
  have h0 : ∀ d', SameGeo d' (setSolid first w start d') := fun _ => ⟨rfl, rfl, rfl, rfl, rfl⟩
  have h1 : ∀ d', SameGeo d' (setBeam first z start d') := fun _ => ⟨rfl, rfl, rfl, rfl, rfl⟩
  have h2 : ∀ d', SameGeo d' (setShell first y start d') := fun _ => ⟨rfl, rfl, rfl, rfl, rfl⟩
  have h3 : ∀ d', SameGeo d' (setThick first x start d') := fun _ => ⟨rfl, rfl, rfl, rfl, rfl⟩
  exact (((h0 _).trans (h1 _)).trans (h2 _)).trans (h3 _)

theorem readElements_geo {c : Cda} {first : Bool} {start : Nat} {d : Ptrs} {s s' : S} {a : Ptrs × Found}
    (e : readElements c first start d s = .ok (a, s')) : SameGeo d a.1 := by
  unfold readElements at e
  obtain ⟨_, t, _, e⟩ := bind_inv e
  refine orStop_geo (SameGeo.refl d) ?_ e
  intro s a s' e
  iterate 8 obtain ⟨_, _, _, e⟩ := bind_inv e
  refine orStop_geo ?_ ?_ e
  · exact setElements_geo _ _ _ _ _ _ _
  intro s a s' e
  obtain ⟨_, _, _, e⟩ := bind_inv e
  split at e
  · cases e
  · obtain ⟨_, _, _, e⟩ := bind_inv e
    refine orStop_geo ?_ ?_ e
    · exact setElements_geo _ _ _ _ _ _ _
    intro s a s' e
    cases e
    exact setElements_geo _ _ _ _ _ _ _

theorem setNodes_geo (c : Cda) (first : Bool) (x y z start : Nat) (d : Ptrs) :
    SameGeo d (setAcc c first x start (setVel c first y start (setCoords c first z start d))) := by
  have h1 : SameGeo d (setCoords c first z start d) := ⟨rfl, rfl, rfl, rfl, rfl⟩
  have h2 : ∀ d', SameGeo d' (setVel c first y start d') := fun _ => ⟨rfl, rfl, rfl, rfl, rfl⟩
  have h3 : ∀ d', SameGeo d' (setAcc c first x start d') := fun _ => ⟨rfl, rfl, rfl, rfl, rfl⟩
  exact (h1.trans (h2 _)).trans (h3 _)

theorem readNodes_geo {c : Cda} {first : Bool} {start : Nat} {d : Ptrs} {s s' : S} {a : Ptrs × Found}
    (e : readNodes c first start d s = .ok (a, s')) : SameGeo d a.1 := by
  unfold readNodes at e
  iterate 6 obtain ⟨_, _, _, e⟩ := bind_inv e
  refine orStop_geo ?_ ?_ e
  · exact setNodes_geo _ _ _ _ _ _ _
  intro s a s' e
  obtain ⟨_, _, _, e⟩ := bind_inv e
  split at e
  · cases e
  · refine SameGeo.trans ?_ (readElements_geo e)
    exact setNodes_geo _ _ _ _ _ _ _

theorem readState_geo {c : Cda} {n : Nat} {first : Bool} {d : Ptrs} {s s' : S} {a : Ptrs × Found}
    (e : readState c n first d s = .ok (a, s')) : SameGeo d a.1 := by
  unfold readState at e
  iterate 4 obtain ⟨_, _, _, e⟩ := bind_inv e
  split at e
  · cases e
  · split at e
    · cases e
      exact SameGeo.refl d
    · iterate 2 obtain ⟨_, _, _, e⟩ := bind_inv e
      refine orStop_geo (SameGeo.refl d) ?_ e
      intro s a s' e
      obtain ⟨_, _, _, e⟩ := bind_inv e
      refine orStop_geo (SameGeo.refl d) ?_ e
      intro s a s' e
      obtain ⟨_, _, _, e⟩ := bind_inv e
      split at e
      · cases e
      · exact readNodes_geo e

theorem readStates_geo {c : Cda} {n : Nat} : ∀ (fuel : Nat) {d : Ptrs} {l : List Nat} {s s' : S}
    {a : Ptrs × List Nat}, readStates c n fuel d l s = .ok (a, s') → SameGeo d a.1 := by
  intro fuel
  induction fuel with
  | zero => intro d l s s' a e; cases e
  | succ k ih =>
    intro d l s s' a e
    unfold readStates at e
    obtain ⟨⟨d', f⟩, t, e1, e⟩ := bind_inv e
    have h := readState_geo e1
    cases f with
    | finish => cases e; exact h
    | state st => exact h.trans (ih e)
    | eof =>
      obtain ⟨x, t', e2, e⟩ := bind_inv e
      split at e
      · exact h.trans (ih e)
      · cases e
        exact h

/-! ## Everything together -/

/-- What the geometry pointers are made of, whatever word they start at. -/
theorem readBody_inv {fuel : Nat} {c : Cda} {s s' : S} {n : Nat} {d : Ptrs} {l : List Nat}
    (e : readBody fuel c s = .ok ((n, d, l), s')) :
    s'.b.err = false ∧ c.packed = false ∧
      ∃ d0 t, readGeometry c {} s = .ok (d0, t) ∧ SameGeo d0 d := by
  unfold readBody at e
  obtain ⟨d0, t0, e1, e⟩ := bind_inv e
  obtain ⟨⟨d1, n1⟩, t1, e2, e⟩ := bind_inv e
  iterate 4 obtain ⟨_, _, _, e⟩ := bind_inv e
  split at e
  · exact absurd e (by intro h; unfold failClose at h; split at h <;> cases h)
  obtain ⟨d3, t3, e3, e⟩ := bind_inv e
  split at e
  · exact absurd e (by intro h; unfold failClose at h; split at h <;> cases h)
  obtain ⟨x, t4, e4, e⟩ := bind_inv e
  split at e
  · exact absurd e (by intro h; unfold failClose at h; split at h <;> cases h)
  obtain ⟨⟨d5, l5⟩, t5, e5, e⟩ := bind_inv e
  cases e
  refine ⟨readStates_err _ e5, ?_, d0, t0, e1,
    ((readUserIds_geo e2).trans (readHeader_geo _ e3)).trans (readStates_geo _ e5)⟩
  unfold readGeometry at e1
  obtain ⟨_, _, _, e1⟩ := bind_inv e1
  split at e1
  · cases e1
  · rename_i hp
    simpa using hp

theorem readExtra_words {b : Buf} (g : Good b) {s s' : S} {x : Extra} {extra : Nat} (h : At b 64 s)
    (e : readExtra extra s = .ok (x, s')) (hl : ¬ Dead s') :
    (extra = 0 → x = {}) ∧ (0 < extra → x = extAt b x.npart) := by
  unfold readExtra at e
  by_cases h0 : extra > 0
  · rw [if_pos h0] at e
    have hm : ∀ (A B : M Extra) (c : Bool), Mono A → Mono B → Mono (if c = true then A else B) := by
      intro A B c hA hB
      cases c
      · exact hB
      · exact hA
    iterate 17
      obtain ⟨t, h, e⟩ := rd_step g h e hl (fun _ => by mono)
      replace h := h.at
    obtain ⟨t, h, e⟩ := rd_step g h e hl (fun _ => mono_skip (hm _ _ _ (by mono) (by mono)))
    obtain ⟨_, t, _, e⟩ := bind_inv e
    refine ⟨by omega, fun _ => ?_⟩
    split at e
    · obtain ⟨_, t, _, e⟩ := bind_inv e
      obtain ⟨_, t, _, e⟩ := bind_inv e
      cases e
      rfl
    · cases e
      rfl
  · rw [if_neg h0, pure_eq] at e
    cases e
    exact ⟨fun _ => rfl, fun h => absurd h h0⟩

/-- Buffers that opening can produce are not too short to contain the control words. -/
theorem openBuf_inv {files : List Bytes} {b : Buf} (h : openBuf files = .ok b) :
    b.files = files ∧ b.err = false ∧ (b.ws = 4 ∨ b.ws = 8) ∧ 184 ≤ files.flatten.length := by
  have hlen : 184 ≤ files.flatten.length := by
    by_cases hne : files = []
    · rw [hne] at h
      cases h
    · by_cases hl : 184 ≤ files.flatten.length
      · exact hl
      · have := c29_short_family_is_ub hne (by omega)
        rw [this] at h
        cases h
  refine ⟨?_, ?_, ?_, hlen⟩
  all_goals
    unfold openBuf at h
    split at h
    · cases h
    · cases e1 : probeAll ⟨files, 4, false⟩ with
      | err => rw [e1] at h; cases h
      | ub => rw [e1] at h; cases h
      | abort => rw [e1] at h; cases h
      | ok s32 =>
        rw [e1] at h
        cases e2 : probeAll ⟨files, 8, false⟩ with
        | err => rw [e2] at h; cases h
        | ub => rw [e2] at h; cases h
        | abort => rw [e2] at h; cases h
        | ok s64 =>
          rw [e2] at h
          change (if _ then _ else _ : Res Buf) = _ at h
          split at h
          · cases h
          · cases h
            first | rfl | (cases s64 <;> simp)

theorem dead_hasErr {s : S} (h : Dead s) : hasErr s = .ok (true, s) := by
  unfold hasErr; rw [h.2]

/-- What has been read when opening succeeds: the state in front of the geometry, and the rest. -/
theorem openPlot_body {files : List Bytes} {plot : Plot} (h : openPlot files = .ok plot) :
    openBuf files = .ok plot.buf ∧
    (Aligned plot.buf → plot.buf.bytes.length < 2 ^ 63 →
      plot.cda.raw = rawAt plot.buf ∧
      (plot.cda.raw.extra = 0 → plot.cda.ext = {}) ∧
      (0 < plot.cda.raw.extra → plot.cda.ext = extAt plot.buf plot.cda.ext.npart) ∧
      ∃ fuel s s', readBody fuel plot.cda s = .ok ((plot.numrbs, plot.ptrs, plot.states), s') ∧
        (plot.cda.raw.extra < 2 ^ 59 → plot.cda.ext = extOf plot.buf ∧
          At plot.buf (64 + plot.cda.raw.extra + partWords plot.cda.ext) s)) ∧
    derive plot.cda.raw plot.cda.ext = .ok plot.cda ∧ supported plot.cda = true ∧
    plot.cda.packed = false := by
  unfold openPlot at h
  cases eb : openBuf files with
  | err => rw [eb] at h; cases h
  | ub => rw [eb] at h; cases h
  | abort => rw [eb] at h; cases h
  | ok b =>
    rw [eb] at h
    simp only at h
    obtain ⟨hbf, hbe, hbw, hbl⟩ := openBuf_inv eb
    split at h
    case h_2 => cases h
    case h_3 => cases h
    case h_4 => cases h
    rename_i c n d l s e
    cases h
    obtain ⟨_, t1, e1, e⟩ := bind_inv e
    obtain ⟨_, t2, e2, e⟩ := bind_inv e
    obtain ⟨ft, t3, e3, e⟩ := bind_inv e
    replace e := (ite_failClose_inv e).2
    unfold readPlot at e
    obtain ⟨_, t4, e4, e⟩ := bind_inv e
    obtain ⟨_, t5, e5, e⟩ := bind_inv e
    obtain ⟨_, t6, e6, e⟩ := bind_inv e
    obtain ⟨raw, t7, e7, e⟩ := bind_inv e
    obtain ⟨ext, t8, e8, e⟩ := bind_inv e
    obtain ⟨err, t9, e9, e⟩ := bind_inv e
    cases e9
    obtain ⟨herr, e⟩ := ite_failClose_inv e
    have hlive : ¬ Dead t8 := fun hd => herr hd.2
    cases hder : derive raw ext with
    | ub => rw [hder] at e; cases e
    | abort => rw [hder] at e; cases e
    | err =>
      rw [hder] at e
      exact absurd e (by intro h; change failClose _ = _ at h; unfold failClose at h; split at h <;> cases h)
    | ok c' =>
    rw [hder] at e
    simp only at e
    obtain ⟨hsup, e⟩ := ite_failClose_inv e
    obtain ⟨⟨n', d', l'⟩, t10, e10, e⟩ := bind_inv e
    cases e
    obtain ⟨herr', hpk, d0, t, hg, hgeo⟩ := readBody_inv e10
    have hcr : c.raw = raw ∧ c.ext = ext := by
      unfold derive at hder
      repeat' split at hder
      all_goals (try (cases hder; done))
      all_goals (cases hder; exact ⟨rfl, rfl⟩)
    have hsame : Same ⟨b, (seek b 0).2⟩ s :=
      (frame_skip _ _ _ _ e1).trans <| (frame_skip _ _ _ _ e2).trans <| (frame_rd _ _ _ e3).trans <|
      (frame_skip _ _ _ _ e4).trans <| (frame_skip _ _ _ _ e5).trans <| (frame_skip _ _ _ _ e6).trans <|
      (frame_readRaw _ _ _ e7).trans <| (frame_readExtra _ _ _ _ e8).trans (frame_readBody _ _ _ _ _ e10)
    have hsb : s.b = b := by
      obtain ⟨h1, h2⟩ := hsame
      cases hs : s.b with
      | mk f w er =>
        rw [hs] at h1 h2 herr'
        cases b
        simp only at h1 h2 herr' hbe
        rw [h1, h2, herr', hbe]
    simp only
    rw [hsb]
    refine ⟨rfl, ?_, by rw [hcr.1, hcr.2]; exact hder, by simpa using hsup, hpk⟩
    intro hal hsize
    have g : Good b := ⟨hbe, by omega, by omega, hsize, hal⟩
    have hw : 22 < words b := by
      rw [lt_words g]
      unfold Buf.bytes
      rw [hbf]
      rcases hbw with h | h <;> rw [h] <;> omega
    have hlen0 : 0 < b.bytes.length := by unfold Buf.bytes; rw [hbf]; omega
    obtain ⟨q, q1, q2, q3, q4⟩ := seek_inside (b := b) (w := 0) (by unfold u64; omega) (by simpa using hlen0)
    have h0 : At b 0 ⟨b, (seek b 0).2⟩ := ⟨rfl, q, by rw [q1], q2, q3, q4⟩
    obtain ⟨u1, r1, h0⟩ := skip_at g h0 (n := 10) (by omega)
    rw [r1] at e1
    cases e1
    obtain ⟨u2, r2, h0⟩ := skip_at g h0 (n := 1) (by omega)
    rw [r2] at e2
    cases e2
    obtain ⟨u3, r3, h0⟩ := rd_at g h0 (by omega)
    rw [r3] at e3
    cases e3
    replace h0 := h0.at
    obtain ⟨u4, r4, h0⟩ := skip_at g h0 (n := 1) (by omega)
    rw [r4] at e4
    cases e4
    obtain ⟨u5, r5, h0⟩ := skip_at g h0 (n := 1) (by omega)
    rw [r5] at e5
    cases e5
    obtain ⟨u6, r6, h0⟩ := skip_at g h0 (n := 1) (by omega)
    rw [r6] at e6
    cases e6
    have hmono : Mono (readExtra raw.extra) := by
      unfold readExtra
      have hm : ∀ (A B : M Extra) (c : Bool), Mono A → Mono B → Mono (if c = true then A else B) := by
        intro A B c hA hB
        cases c
        · exact hB
        · exact hA
      split
      · exact mono_rd _
      · exact mono_pure _
    have hlive7 : ¬ Dead t7 := fun hd => hlive (hmono _ _ _ hd e8)
    obtain ⟨hraw, h0⟩ := readRaw_spec g h0 e7 hlive7
    have hx := readExtra_words g h0 e8 hlive
    refine ⟨hcr.1.trans hraw, by rw [hcr.1, hcr.2]; exact hx.1, by rw [hcr.1, hcr.2]; exact hx.2, _, t8, s, e10, ?_⟩
    rw [hcr.1, hcr.2]
    intro hsmall
    obtain ⟨x1, x2, x3⟩ := readExtra_spec g h0 hsmall e8 hlive
    refine ⟨?_, x3⟩
    have h57 : raw.extra = wordAt b 57 := by rw [hraw]; rfl
    unfold extOf
    by_cases hz : wordAt b 57 = 0
    · rw [if_pos hz]
      exact x1 (by omega)
    · rw [if_neg hz]
      have x4 := (x2 (by omega)).2
      have q1 : ext.quadr = wordAt b 74 := by rw [x4]; rfl
      have q2 : ext.cubic = wordAt b 75 := by rw [x4]; rfl
      rw [q1, q2, h57] at x4
      exact x4

theorem openPlot_inv {files : List Bytes} {plot : Plot} (h : openPlot files = .ok plot) :
    openBuf files = .ok plot.buf ∧
    (Aligned plot.buf → plot.buf.bytes.length < 2 ^ 63 →
      plot.cda.raw = rawAt plot.buf ∧
      (plot.cda.raw.extra = 0 → plot.cda.ext = {}) ∧
      (0 < plot.cda.raw.extra → plot.cda.ext = extAt plot.buf plot.cda.ext.npart) ∧
      ∃ s d0 t, readGeometry plot.cda {} s = .ok (d0, t) ∧ SameGeo d0 plot.ptrs ∧
        (plot.cda.raw.extra < 2 ^ 59 → At plot.buf (64 + plot.cda.raw.extra + partWords plot.cda.ext) s)) ∧
    derive plot.cda.raw plot.cda.ext = .ok plot.cda ∧ supported plot.cda = true ∧
    plot.cda.packed = false := by
  obtain ⟨h1, h2, h3⟩ := openPlot_body h
  refine ⟨h1, ?_, h3⟩
  intro hal hsize
  obtain ⟨a1, a2, a3, fuel, s, s', e, a4⟩ := h2 hal hsize
  obtain ⟨-, -, d0, t, hg, hgeo⟩ := readBody_inv e
  exact ⟨a1, a2, a3, s, d0, t, hg, hgeo, fun h => (a4 h).2⟩

end Dyna.D3
