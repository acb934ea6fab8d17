import Verif.MultiFileSingle
/-!
# Property C84: in builds without thread safety users of a file do not disturb each other

The specification gives every user a position of its own and does not have a common `FILE` object.
-/

namespace Dyna.Single

/-! ## Specification -/

/-- Specification: every user that has accessed the file and not returned it has a position. -/
abbrev Cursors := Nat → Option Nat

/-- Specification: a new position for a user. -/
def Cursors.put (c : Cursors) (x : Nat) (v : Option Nat) : Cursors := fun y => if y = x then v else c y

/-- Specification: where a user wants to go to, as `fseek` of the C standard defines it. -/
def target (content : Bytes) (p : Nat) (offset : Int) : Whence → Int
  | .set => offset
  | .cur => p + offset
  | .fin => content.length + offset

/-- Specification: the calls on a file with a position for every user, as the C standard defines them for a
file of one's own. `none`: the user has no file. -/
def Cursors.step (content : Bytes) (c : Cursors) : Cmd → Option (Cursors × Option Obs)
  | .access x => some (c.put x (some 0), none)
  | .giveBack x => (c x).map fun _ => (c.put x none, none)
  | .seek x offset whence => (c x).map fun p =>
    if target content p offset whence < 0 then (c, some (.num (-1)))
    else (c.put x (some (target content p offset whence).toNat), some (.num 0))
  | .tell x => (c x).map fun (p : Nat) => (c, some (.num (p : Int)))
  | .read x size nmemb => (c x).map fun p =>
    (c.put x (some (p + ((content.drop p).take (size * nmemb)).length)),
      some (.data (((content.drop p).take (size * nmemb)).length / size) ((content.drop p).take (size * nmemb))))

/-- Specification: a sequence of calls. -/
def Cursors.run (content : Bytes) (c : Cursors) : List Cmd → Option (Cursors × List Obs)
  | [] => some (c, [])
  | a :: as => do
    let r ← c.step content a
    let q ← r.1.run content as
    some (q.1, r.2.toList ++ q.2)

/-- Specification: the call is not one of the two that differ: no offset from the end of the file, and no
position in front of the file or beyond what `long` can hold. -/
def Plain (content : Bytes) (c : Cursors) : Cmd → Prop
  | .seek x offset whence => (whence = .fin → offset = 0) ∧
    ∀ p, c x = some p → 0 ≤ target content p offset whence ∧ target content p offset whence < 9223372036854775808
  | _ => True

/-- Specification: the call changes the position of the user `x`. -/
def Moves (x : Nat) : Cmd → Prop
  | .access y => y = x
  | .seek y _ _ => y = x
  | .read y _ _ => y = x
  | _ => False

/-- Specification: all calls are plain. -/
def AllPlain (content : Bytes) (c : Cursors) : List Cmd → Prop
  | [] => True
  | a :: as => Plain content c a ∧ ∀ r, c.step content a = some r → AllPlain content r.1 as

/-! ## Proof -/

/-- Auxiliary: the variables hold the positions. -/
def Agree (s : State) (c : Cursors) : Prop := ∀ x p, c x = some p → s.index x = some (p : Int)

theorem Agree.put {s : State} {c : Cursors} (h : Agree s c) (x p fpos : Nat) :
    Agree ({ s with fpos := fpos }.setIndex x p) (c.put x (some p)) := by
  intro y q hy
  unfold Cursors.put at hy
  simp only [State.setIndex]
  split at hy
  · rename_i e
    cases hy
    rw [if_pos e]
  · rename_i e
    rw [if_neg e]
    exact h y q hy

theorem step_agree {content : Bytes} {s : State} {c c' : Cursors} {a : Cmd} {o : Option Obs}
    (h : Agree s c) (hp : Plain content c a) (hc : c.step content a = some (c', o)) :
    ∃ s', s.step content a = .ok (s', o) ∧ Agree s' c' := by
  cases a with
  | access x =>
    simp only [Cursors.step, Option.some.injEq, Prod.mk.injEq] at hc
    obtain ⟨rfl, rfl⟩ := hc
    exact ⟨_, rfl, h.put x 0 s.fpos⟩
  | giveBack x =>
    simp only [Cursors.step, Option.map_eq_some_iff, Prod.mk.injEq] at hc
    obtain ⟨p, hx, rfl, rfl⟩ := hc
    refine ⟨s, rfl, ?_⟩
    intro y q hy
    unfold Cursors.put at hy
    split at hy
    · cases hy
    · exact h y q hy
  | tell x =>
    simp only [Cursors.step, Option.map_eq_some_iff, Prod.mk.injEq] at hc
    obtain ⟨p, hx, rfl, rfl⟩ := hc
    refine ⟨s, ?_, h⟩
    simp only [State.step]
    rw [h x p hx]
  | seek x offset whence =>
    simp only [Cursors.step, Option.map_eq_some_iff] at hc
    obtain ⟨p, hx, hc⟩ := hc
    obtain ⟨h1, h2⟩ := hp
    obtain ⟨h2, h3⟩ := h2 p hx
    rw [if_neg (by omega)] at hc
    simp only [Prod.mk.injEq] at hc
    obtain ⟨rfl, rfl⟩ := hc
    have ht : seekTarget content p offset whence = target content p offset whence := by
      cases whence with
      | set => rfl
      | cur => rfl
      | fin => simp only [target, seekTarget]; rw [h1 rfl]; omega
    refine ⟨_, ?_, h.put x (target content p offset whence).toNat (target content p offset whence).toNat⟩
    simp only [State.step, State.seek]
    rw [h x p hx]
    simp only [ht]
    have hl : isLong (target content p offset whence) = true := by
      unfold isLong; simp only [decide_eq_true_eq]; omega
    rw [hl]
    simp only [Bool.not_true, Bool.false_eq_true, if_false, fseekSet]
    rw [if_neg (by omega)]
    have : (((target content p offset whence).toNat : Nat) : Int) = target content p offset whence := by omega
    rw [this]
  | read x size nmemb =>
    simp only [Cursors.step, Option.map_eq_some_iff, Prod.mk.injEq] at hc
    obtain ⟨p, hx, rfl, rfl⟩ := hc
    refine ⟨_, ?_, h.put x _ (p + ((content.drop p).take (size * nmemb)).length)⟩
    simp only [State.step, State.read]
    rw [h x p hx]
    have hs : fseekSet s.fpos (p : Int) = (p, 0) := by
      unfold fseekSet
      rw [if_neg (by omega)]
      simp
    simp only [hs]
    simp [fread]

/-- C84, part: whatever the users of a file do in whatever order, each of them gets what it would get with a
file of its own. Not covered are offsets from the end of the file and positions in front of the file. -/
theorem c84_cursors_partial (content : Bytes) (as : List Cmd) (c : Cursors) (obs : List Obs)
    (h : Cursors.run content (fun _ => none) as = some (c, obs)) (hp : AllPlain content (fun _ => none) as) :
    ∃ s, State.init.run content as = .ok (s, obs) := by
  suffices ∀ (as : List Cmd) (c0 c : Cursors) (s : State) (obs : List Obs), Agree s c0 → AllPlain content c0 as →
      c0.run content as = some (c, obs) → ∃ s', s.run content as = .ok (s', obs) from
    this as _ c State.init obs (fun x p h => by cases h) hp h
  intro as
  induction as with
  | nil =>
    intro c0 c s obs _ _ h
    simp only [Cursors.run, Option.some.injEq, Prod.mk.injEq] at h
    obtain ⟨rfl, rfl⟩ := h
    exact ⟨s, rfl⟩
  | cons a as ih =>
    intro c0 c s obs ha hp h
    simp only [Cursors.run, Option.bind_eq_bind, Option.bind_eq_some_iff, Option.some.injEq, Prod.mk.injEq] at h
    obtain ⟨⟨c1, o⟩, h1, ⟨c2, os⟩, h2, rfl, rfl⟩ := h
    obtain ⟨s1, g1, g2⟩ := step_agree ha hp.1 h1
    obtain ⟨s2, g3⟩ := ih c1 c2 s1 os g2 (hp.2 _ h1) h2
    refine ⟨s2, ?_⟩
    simp only [State.run]
    rw [g1]
    simp only [Res.bind_ok]
    rw [g3]
    rfl

/-- C84: in particular a user that seeks to a position inside of the file and reads gets the bytes at this
position, whatever the others have done before and do between the two calls. -/
theorem c84_seek_read (content : Bytes) (s : State) (x p n : Nat) (between : List Cmd) (s1 s2 s3 : State)
    (o : Option Obs) (os : List Obs) (hp : p < 9223372036854775808)
    (h1 : s.step content (.seek x p .set) = .ok (s1, o)) (h2 : s1.run content between = .ok (s2, os))
    (hx : ∀ a ∈ between, ¬ Moves x a) (ob : Option Obs) (h3 : s2.step content (.read x 1 n) = .ok (s3, ob)) :
    o = some (.num 0) ∧
      ob = some (.data ((content.drop p).take n).length ((content.drop p).take n)) := by
  have hkeep : ∀ (as : List Cmd) (s s' : State) (os : List Obs), (∀ a ∈ as, ¬ Moves x a) → s.run content as = .ok (s', os) → s'.index x = s.index x := by
    intro as
    induction as with
    | nil =>
      intro s s' os _ h
      simp only [State.run, Res.ok.injEq, Prod.mk.injEq] at h
      rw [← h.1]
    | cons a as ih =>
      intro s s' os ha h
      simp only [State.run] at h
      have hone : ∀ r, s.step content a = .ok r → r.1.index x = s.index x := by
        intro r hr
        have hax := ha a (by simp)
        cases a with
        | access y =>
          simp only [State.step, Res.ok.injEq] at hr
          subst hr
          simp only [State.setIndex]
          rw [if_neg (fun e => hax e.symm)]
        | giveBack y => simp only [State.step, Res.ok.injEq] at hr; subst hr; rfl
        | tell y =>
          simp only [State.step] at hr
          split at hr
          · cases hr
          · simp only [Res.ok.injEq] at hr; subst hr; rfl
        | seek y off wh =>
          simp only [State.step, State.seek] at hr
          split at hr
          · cases hr
          · split at hr
            · cases hr
            · simp only [Res.ok.injEq] at hr
              subst hr
              simp only [State.setIndex]
              rw [if_neg (fun e => hax e.symm)]
        | read y size nmemb =>
          simp only [State.step, State.read] at hr
          split at hr
          · cases hr
          · split at hr
            · simp only [Res.ok.injEq] at hr; subst hr; rfl
            · simp only [Res.ok.injEq] at hr
              subst hr
              simp only [State.setIndex]
              rw [if_neg (fun e => hax e.symm)]
      cases hs : s.step content a with
      | ok r =>
        rw [hs] at h
        simp only [Res.bind_ok] at h
        cases hq : r.1.run content as with
        | ok q =>
          rw [hq] at h
          simp only [Res.bind_ok, Res.ok.injEq, Prod.mk.injEq] at h
          rw [← h.1, ih r.1 q.1 q.2 (fun b hb => ha b (by simp [hb])) hq, hone r hs]
        | err => rw [hq] at h; cases h
        | ub => rw [hq] at h; cases h
        | abort => rw [hq] at h; cases h
      | err => rw [hs] at h; cases h
      | ub => rw [hs] at h; cases h
      | abort => rw [hs] at h; cases h
  have hi : s1.index x = some (p : Int) ∧ o = some (.num 0) := by
    simp only [State.step, State.seek, seekTarget] at h1
    split at h1
    · cases h1
    · have hl : isLong (p : Int) = true := by
        unfold isLong; simp only [decide_eq_true_eq]; omega
      simp only [hl, Bool.not_true, Bool.false_eq_true, if_false, Res.ok.injEq, Prod.mk.injEq] at h1
      obtain ⟨rfl, rfl⟩ := h1
      refine ⟨by simp [State.setIndex], ?_⟩
      unfold fseekSet
      rw [if_neg (by omega)]
  refine ⟨hi.2, ?_⟩
  have h4 := hkeep between s1 s2 os hx h2
  rw [hi.1] at h4
  simp only [State.step, State.read] at h3
  rw [h4] at h3
  have hs : fseekSet s2.fpos (p : Int) = (p, 0) := by
    unfold fseekSet
    rw [if_neg (by omega)]
    simp
  simp only [hs, fread] at h3
  rw [if_neg (by decide)] at h3
  simp only [Res.ok.injEq, Prod.mk.injEq] at h3
  rw [← h3.2]
  simp

/-- C84, violation: an offset from the end of the file counts backwards; `fseek(f, -2, SEEK_END)` is two bytes
in front of the end, `multi_file_seek` with the same arguments goes behind the end. -/
theorem c84_from_end (content : Bytes) (s : State) (x n : Nat) (i : Int) (hx : s.index x = some i)
    (hn : n < 1000000) (hc : content.length < 1000000) :
    ∃ s', s.step content (.seek x (-n) .fin) = .ok (s', some (.num 0)) ∧
      s'.index x = some ((content.length + n : Nat) : Int) := by
  simp only [State.step, State.seek, seekTarget]
  rw [hx]
  have h1 : (content.length : Int) - -(n : Int) = ((content.length + n : Nat) : Int) := by omega
  simp only [h1]
  have hl : isLong ((content.length + n : Nat) : Int) = true := by
    unfold isLong; simp only [decide_eq_true_eq]; omega
  rw [hl]
  simp only [Bool.not_true, Bool.false_eq_true, if_false, fseekSet]
  rw [if_neg (by omega)]
  exact ⟨_, rfl, by simp [State.setIndex]⟩

/-- C84, violation: after a seek in front of the file, which fails, the position is not the old one:
`multi_file_tell` returns a negative number, and reading delivers nothing. -/
theorem c84_failed_seek (content : Bytes) (s : State) (x n size nmemb : Nat) (i : Int) (hx : s.index x = some i)
    (hn : n < 1000000) :
    ∃ s', s.step content (.seek x (-(n + 1)) .set) = .ok (s', some (.num (-1))) ∧
      s'.step content (.tell x) = .ok (s', some (.num (-(n + 1)))) ∧
      s'.step content (.read x size nmemb) = .ok (s', some (.data 0 [])) := by
  simp only [State.step, State.seek, seekTarget]
  rw [hx]
  have hl : isLong (-((n : Int) + 1)) = true := by
    unfold isLong; simp only [decide_eq_true_eq]; omega
  simp only [hl, Bool.not_true, Bool.false_eq_true, if_false, fseekSet]
  rw [if_pos (by omega)]
  refine ⟨_, rfl, ?_, ?_⟩
  · simp [State.setIndex]
  · have hf : fseekSet s.fpos (-((n : Int) + 1)) = (s.fpos, -1) := by
      unfold fseekSet
      rw [if_pos (by omega)]
    simp only [State.read, State.setIndex, if_true, hf]

/-- Not vacuous: two users take turns. -/
example : AllPlain [10, 11, 12, 13, 14] (fun _ => none) [.access 0, .access 1, .seek 0 2 .set, .read 1 1 2,
    .read 0 1 1, .seek 1 1 .cur, .tell 1, .read 0 2 2, .giveBack 0, .read 1 1 9] ∧
    ∃ c, Cursors.run [10, 11, 12, 13, 14] (fun _ => none) [.access 0, .access 1, .seek 0 2 .set, .read 1 1 2,
      .read 0 1 1, .seek 1 1 .cur, .tell 1, .read 0 2 2, .giveBack 0, .read 1 1 9] =
      some (c, [.num 0, .data 2 [10, 11], .data 1 [12], .num 0, .num 3, .data 1 [13, 14], .data 2 [13, 14]]) := by
  refine ⟨?_, _, rfl⟩
  simp [AllPlain, Plain, Cursors.step, Cursors.put, target]

end Dyna.Single
