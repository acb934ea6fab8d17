import Verif.D3Writer
import Verif.Props.D3Elements
/-!
# C105: a database that is written as the format prescribes is read back
-/

namespace Dyna.D3

/-- Specification: a state with the variables that the control words announce. -/
structure StepOk (d : Db) (s : Step) : Prop where
  globals : s.globals.length = d.nglbv
  coords : s.coords.length = if d.hasCoords then 3 * d.nodes.length else 0
  velocity : s.velocity.length = if d.hasVelocity then 3 * d.nodes.length else 0
  acceleration : s.acceleration.length = if d.hasAcceleration then 3 * d.nodes.length else 0
  solids : s.solids.length = d.solids.length ∧ ∀ e ∈ s.solids, e.length = d.nv3d
  beams : s.beams.length = d.beams.length ∧ ∀ e ∈ s.beams, e.length = d.nv1d
  shells : s.shells.length = d.shells.length ∧ ∀ e ∈ s.shells, e.length = d.nv2d
  thicks : s.thicks.length = d.thicks.length ∧ ∀ e ∈ s.thicks, e.length = d.nv3dt
  deleted : s.deleted.length =
    if 0 ≤ d.maxint then 0
    else if d.maxint < -10000 then d.solids.length + d.thicks.length + d.shells.length + d.beams.length
    else d.nodes.length
  time : s.time ≠ eofWord d.ws
  small : ∀ w ∈ s.words, w < 256 ^ d.ws

/-- Specification: a database whose contents agree with its control words, that uses only what the library supports, and whose first words
do not look like those of a database with words of the other size. -/
structure Db.Ok (d : Db) : Prop where
  ws : d.ws = 4 ∨ d.ws = 8
  title : d.title.length = 10
  nodes : ∀ e ∈ d.nodes, e.length = 3
  solids : ∀ e ∈ d.solids, e.length = 9
  thicks : ∀ e ∈ d.thicks, e.length = 9
  beams : ∀ e ∈ d.beams, e.length = 6
  shells : ∀ e ∈ d.shells, e.length = 5
  nodeIds : d.nodeIds.length = d.nodes.length
  solidIds : d.solidIds.length = d.solids.length
  beamIds : d.beamIds.length = d.beams.length
  shellIds : d.shellIds.length = d.shells.length
  thickIds : d.thickIds.length = d.thicks.length
  partOther : d.partOther.length = 2 * d.partIds.length
  small : ∀ w ∈ d.header, w < 256 ^ d.ws
  count : d.solids.length < 256 ^ d.ws / 2
  globals : 6 + 7 * (d.nummat8 + d.nummat2 + d.nummat4 + d.nummatt + d.numrbs) ≤ d.nglbv
  neips : d.neips ≤ 255
  maxint : -10255 ≤ d.maxint ∧ d.maxint ≤ 255 ∧ (d.maxint < -255 → d.maxint < -10000)
  idtdt : ∀ k, k < 4 → d.idtdt / 10 ^ k % 10 ≠ 1
  nonempty : d.files ≠ []
  steps : ∀ f ∈ d.files, ∀ s ∈ f, StepOk d s
  size : d.write.flatten.length < 2 ^ 63
  otherSize : ¬ Plausible d.write.flatten (12 - d.ws)

/-! ## Bytes of words -/

theorem leBytes_length (ws n : Nat) : (leBytes ws n).length = ws := by simp [leBytes]

theorem leBytes_succ (ws n : Nat) : leBytes (ws + 1) n = n % 256 :: leBytes ws (n / 256) := by
  unfold leBytes
  rw [List.range_succ_eq_map]
  simp only [List.map_cons, List.map_map, Nat.pow_zero, Nat.div_one]
  congr 1
  apply List.map_congr_left
  intro i _
  simp only [Function.comp_apply]
  rw [Nat.pow_succ, Nat.mul_comm, Nat.div_div_eq_div_mul]

theorem leNat_leBytes (ws : Nat) : ∀ n, leNat (leBytes ws n) = n % 256 ^ ws := by
  induction ws with
  | zero => intro n; simp [leBytes, leNat, Nat.mod_one]
  | succ ws ih =>
    intro n
    rw [leBytes_succ, leNat, ih, Nat.pow_succ, Nat.mul_comm _ 256, Nat.mod_mul]

theorem pack_cons (ws x : Nat) (l : List Nat) : packWords ws (x :: l) = leBytes ws x ++ packWords ws l := rfl

theorem pack_append (ws : Nat) (a b : List Nat) : packWords ws (a ++ b) = packWords ws a ++ packWords ws b := by
  simp [packWords]

theorem pack_length (ws : Nat) (l : List Nat) : (packWords ws l).length = l.length * ws := by
  induction l with
  | nil => simp [packWords]
  | cons x xs ih => rw [pack_cons, List.length_append, ih, leBytes_length, List.length_cons, Nat.succ_mul]; omega

theorem pack_word (ws : Nat) : ∀ (l : List Nat) (k : Nat), k < l.length →
    ((packWords ws l).drop (k * ws)).take ws = leBytes ws (l.getD k 0)
  | [], k, h => by simp at h
  | x :: xs, 0, _ => by
    rw [pack_cons, Nat.zero_mul, List.drop_zero, List.take_append_of_le_length (by rw [leBytes_length]; omega),
      List.take_of_length_le (by rw [leBytes_length]; omega)]
    rfl
  | x :: xs, k + 1, h => by
    rw [pack_cons, Nat.succ_mul, Nat.add_comm, List.drop_append, List.drop_of_length_le (by rw [leBytes_length]; omega), List.nil_append,
      leBytes_length, Nat.add_sub_cancel_left, pack_word ws xs k (by simpa using h)]
    rfl

theorem pack_value {ws : Nat} {l : List Nat} (hs : ∀ w ∈ l, w < 256 ^ ws) {k : Nat} (h : k < l.length) :
    leNat (((packWords ws l).drop (k * ws)).take ws) = l.getD k 0 := by
  rw [pack_word ws l k h, leNat_leBytes, Nat.mod_eq_of_lt]
  rw [List.getD_eq_getElem?_getD, List.getElem?_eq_getElem h]
  exact hs _ (List.getElem_mem h)

theorem pack_slice {ws : Nat} {l : List Nat} (hs : ∀ w ∈ l, w < 256 ^ ws) {k n : Nat} (h : k + n ≤ l.length) :
    ((List.range n).map fun m => leNat (((packWords ws l).drop ((k + m) * ws)).take ws)) = (l.drop k).take n := by
  apply List.ext_getElem
  · simp; omega
  · intro i h1 h2
    have hi : i < n := by simpa using h1
    simp only [List.getElem_map, List.getElem_range, List.getElem_take, List.getElem_drop]
    rw [pack_value hs (by omega), List.getD_eq_getElem?_getD, List.getElem?_eq_getElem (by omega)]
    rfl

theorem slice_mid {l a b c : List Nat} (h : l = a ++ (b ++ c)) : (l.drop a.length).take b.length = b := by
  subst h
  simp

theorem flatten_length {l : List (List Nat)} {m : Nat} (h : ∀ e ∈ l, e.length = m) : l.flatten.length = m * l.length := by
  induction l with
  | nil => simp
  | cons x xs ih =>
    rw [List.flatten_cons, List.length_append, ih fun e he => h e (by simp [he]), h x (by simp), List.length_cons, Nat.mul_succ]
    omega

/-! ## The family -/

/-- Auxiliary: the buffer of the files. -/
def Db.buf (d : Db) : Buf := ⟨d.write, d.ws, false⟩

/-- Auxiliary: all words. -/
def Db.all (d : Db) : List Nat := d.header ++ (d.files.map (stepsWords d.ws)).flatten

theorem write_flatten (d : Db) : d.write.flatten = packWords d.ws d.all := by
  unfold Db.write Db.all
  generalize d.files.map (stepsWords d.ws) = l
  rw [List.map_cons, List.flatten_cons, pack_append]
  congr 1
  induction l with
  | nil => rfl
  | cons x xs ih => rw [List.map_cons, List.flatten_cons, List.flatten_cons, pack_append, ih]

theorem eofWord_bytes {ws : Nat} (h : ws = 4 ∨ ws = 8) : leBytes ws (eofWord ws) = eofBytes ws := by
  rcases h with rfl | rfl <;> decide +kernel

theorem eofWord_lt {ws : Nat} (h : ws = 4 ∨ ws = 8) : eofWord ws < 256 ^ ws := by
  rcases h with rfl | rfl <;> decide +kernel

theorem all_small {d : Db} (ok : d.Ok) : ∀ w ∈ d.all, w < 256 ^ d.ws := by
  intro w hw
  unfold Db.all at hw
  rcases List.mem_append.mp hw with h | h
  · exact ok.small w h
  · obtain ⟨l, hl, hwl⟩ := List.mem_flatten.mp h
    obtain ⟨f, hf, rfl⟩ := List.mem_map.mp hl
    unfold stepsWords at hwl
    rcases List.mem_append.mp hwl with h | h
    · obtain ⟨s, hs, hw⟩ := List.mem_flatMap.mp h
      exact (ok.steps f hf s hs).small w hw
    · rw [List.mem_singleton.mp h]
      exact eofWord_lt ok.ws

theorem header_length {d : Db} (ok : d.Ok) : d.header.length =
    64 + (3 * d.nodes.length + 9 * d.solids.length + 9 * d.thicks.length + 6 * d.beams.length + 5 * d.shells.length) + d.narbs + 2 := by
  unfold Db.header Db.control Db.fields Db.idHead Db.narbs
  simp only [List.length_append, List.length_cons, List.length_nil, ok.title, flatten_length ok.nodes, flatten_length ok.solids,
    flatten_length ok.thicks, flatten_length ok.beams, flatten_length ok.shells, ok.nodeIds, ok.solidIds, ok.beamIds, ok.shellIds,
    ok.thickIds, ok.partOther]
  omega

theorem good {d : Db} (ok : d.Ok) : Good d.buf := by
  have hw := ok.ws
  refine ⟨rfl, ?_, ?_, ok.size, ?_⟩
  · show 0 < d.ws
    omega
  · show d.ws ≤ 8
    omega
  · intro f hf
    obtain ⟨l, -, rfl⟩ := List.mem_map.mp (show f ∈ d.write from hf)
    rw [pack_length]
    exact Nat.dvd_mul_left _ _

theorem db_wordAt {d : Db} (ok : d.Ok) {k : Nat} (h : k < d.all.length) : wordAt d.buf k = d.all.getD k 0 := by
  unfold wordAt ctrl Buf.bytes
  show leNat ((d.write.flatten.drop (k * d.ws)).take d.ws) = _
  rw [write_flatten]
  exact pack_value (all_small ok) h

theorem db_wordsFrom {d : Db} (ok : d.Ok) {k n : Nat} (h : k + n ≤ d.all.length) : wordsFrom d.buf k n = (d.all.drop k).take n := by
  unfold wordsFrom wordAt ctrl Buf.bytes
  show ((List.range n).map fun i => leNat ((d.write.flatten.drop ((k + i) * d.ws)).take d.ws)) = _
  rw [write_flatten]
  exact pack_slice (all_small ok) h

/-- Auxiliary: a section of the first file. -/
theorem db_section {d : Db} (ok : d.Ok) {a b c : List Nat} (h : d.all = a ++ (b ++ c)) {k n : Nat} (hk : a.length = k) (hn : b.length = n) :
    wordsFrom d.buf k n = b := by
  subst hk hn
  rw [db_wordsFrom ok (by rw [h]; simp), slice_mid h]

theorem db_words {d : Db} (ok : d.Ok) : words d.buf = d.all.length := by
  unfold words Buf.bytes
  show d.write.flatten.length / d.ws = _
  have hw := ok.ws
  rw [write_flatten, pack_length, Nat.mul_div_cancel _ (by omega)]

theorem db_field {d : Db} (ok : d.Ok) {k : Nat} (h1 : 10 ≤ k) (h2 : k < 64) : wordAt d.buf k = d.fields.getD (k - 10) 0 := by
  have hl := header_length ok
  rw [db_wordAt ok (by unfold Db.all; rw [List.length_append]; omega)]
  have e : d.all = d.title ++ (d.fields ++ d.all.drop 64) := by
    have : d.all = d.control ++ d.all.drop 64 := by
      have hc : d.control.length = 64 := by
        unfold Db.control Db.fields
        simp [ok.title]
      have : ∃ r, d.all = d.control ++ r := by
        unfold Db.all Db.header
        rw [List.append_assoc]
        exact ⟨_, rfl⟩
      obtain ⟨r, hr⟩ := this
      rw [hr, List.drop_append, hc, List.drop_of_length_le (by omega)]
      simp
    rw [← List.append_assoc]
    exact this
  rw [e, List.getD_eq_getElem?_getD, List.getElem?_append_right (by rw [ok.title]; exact h1), ok.title,
    List.getElem?_append_left (by unfold Db.fields; simp; omega), List.getD_eq_getElem?_getD]

theorem signed_signedWord {ws : Nat} {x : Int} (h : x.natAbs < 256 ^ ws / 2) : signed ws (signedWord ws x) = x := by
  unfold signed signedWord
  have e : (256 : Int) ^ ws = ((256 ^ ws : Nat) : Int) := by simp
  rw [e]
  generalize 256 ^ ws = m at *
  by_cases h0 : 0 ≤ x
  · rw [if_pos h0, if_pos (by omega)]
    omega
  · rw [if_neg h0, if_neg (by omega)]
    omega

theorem signed_nat {ws n : Nat} (h : n < 256 ^ ws / 2) : signed ws n = (n : Int) := by
  unfold signed
  rw [if_pos h]

/-- Auxiliary: the control data of the files. -/
def Db.raw (d : Db) : Raw where
  ndim := 4
  numnp := d.nodes.length
  icode := 6
  nglbv := d.nglbv
  it := 0
  iu := flagWord d.hasCoords
  iv := flagWord d.hasVelocity
  ia := flagWord d.hasAcceleration
  nel8 := (d.solids.length : Int)
  nummat8 := d.nummat8
  numds := 0
  numst := 0
  nv3d := d.nv3d
  nel2 := d.beams.length
  nummat2 := d.nummat2
  nv1d := d.nv1d
  nel4 := d.shells.length
  nummat4 := d.nummat4
  nv2d := d.nv2d
  neiph := d.neiph
  neips := d.neips
  maxint := d.maxint
  nmsph := 0
  narbs := d.narbs
  nelt := d.thicks.length
  nummatt := d.nummatt
  nv3dt := d.nv3dt
  ioshl0 := d.ioshl0
  ioshl1 := d.ioshl1
  ioshl2 := d.ioshl2
  ioshl3 := d.ioshl3
  ialemat := 0
  ncfdv1 := 0
  nadapt := 0
  nmmat := d.partIds.length
  npefg := 0
  nel48 := 0
  idtdt := d.idtdt
  extra := 0

theorem half_big {ws : Nat} (h : ws = 4 ∨ ws = 8) : 10255 < 256 ^ ws / 2 := by
  rcases h with rfl | rfl <;> decide

theorem db_raw {d : Db} (ok : d.Ok) : rawAt d.buf = d.raw := by
  have f := fun k h1 h2 => @db_field d ok k h1 h2
  have e23 : signed d.buf.ws (wordAt d.buf 23) = (d.solids.length : Int) := by
    rw [f 23 (by decide) (by decide)]
    exact signed_nat ok.count
  have e36 : signed d.buf.ws (wordAt d.buf 36) = d.maxint := by
    rw [f 36 (by decide) (by decide)]
    refine signed_signedWord ?_
    have := half_big ok.ws
    have := ok.maxint
    show d.maxint.natAbs < 256 ^ d.ws / 2
    omega
  unfold rawAt
  rw [e23, e36]
  rw [f 15 (by decide) (by decide), f 16 (by decide) (by decide), f 17 (by decide) (by decide), f 18 (by decide) (by decide),
    f 19 (by decide) (by decide), f 20 (by decide) (by decide), f 21 (by decide) (by decide), f 22 (by decide) (by decide),
    f 24 (by decide) (by decide), f 25 (by decide) (by decide), f 26 (by decide) (by decide), f 27 (by decide) (by decide),
    f 28 (by decide) (by decide), f 29 (by decide) (by decide), f 30 (by decide) (by decide), f 31 (by decide) (by decide),
    f 32 (by decide) (by decide), f 33 (by decide) (by decide), f 34 (by decide) (by decide), f 35 (by decide) (by decide),
    f 37 (by decide) (by decide), f 39 (by decide) (by decide), f 40 (by decide) (by decide), f 41 (by decide) (by decide),
    f 42 (by decide) (by decide), f 43 (by decide) (by decide), f 44 (by decide) (by decide), f 45 (by decide) (by decide),
    f 46 (by decide) (by decide), f 47 (by decide) (by decide), f 48 (by decide) (by decide), f 50 (by decide) (by decide),
    f 51 (by decide) (by decide), f 54 (by decide) (by decide), f 55 (by decide) (by decide), f 56 (by decide) (by decide),
    f 57 (by decide) (by decide)]
  rfl

theorem db_ext {d : Db} (ok : d.Ok) : extOf d.buf = {} := by
  unfold extOf
  rw [db_field ok (by decide) (by decide)]
  exact if_pos rfl

/-- Auxiliary: the derived control data. -/
def Db.cda (d : Db) : Cda :=
  let ioshl := ((outputFlag d.ioshl0).1, (outputFlag d.ioshl1).1, (outputFlag d.ioshl2).1, (outputFlag d.ioshl3).1)
  ⟨d.raw, {}, 3, false, false, sub64 (sub64 d.nv1d 6) 0 / 5, ioshl, ((outputFlag d.ioshl0).2, (outputFlag d.ioshl1).2),
    (deletion d.maxint).1, (deletion d.maxint).2, strainFlag d.raw (deletion d.maxint).2 ioshl⟩

theorem digit_eq (v : Nat) : ∀ n w, digit w n = w / 10 ^ n % 10
  | 0, w => by unfold digit; rw [Nat.pow_zero, Nat.div_one]; omega
  | n + 1, w => by
    rw [digit, digit_eq v n, Nat.pow_succ, Nat.mul_comm, Nat.div_div_eq_div_mul]

theorem deletion_le {x : Int} (h : -10255 ≤ x ∧ x ≤ 255 ∧ (x < -255 → x < -10000)) : (deletion x).2 ≤ 255 := by
  unfold deletion
  by_cases h1 : x ≥ 0
  · rw [if_pos h1]
    exact h.2.1
  · rw [if_neg h1]
    by_cases h2 : x < -10000
    · rw [if_pos h2]
      show x * -1 - 10000 ≤ 255
      omega
    · rw [if_neg h2]
      show x * -1 ≤ 255
      omega

theorem db_derive {d : Db} (ok : d.Ok) : derive (rawAt d.buf) (extOf d.buf) = .ok d.cda := by
  rw [db_raw ok, db_ext ok]
  have hd := fun k h => ok.idtdt k h
  unfold derive
  rw [if_neg (by decide), show dimension d.raw.ndim = (3, false, false) from rfl]
  simp only
  rw [if_neg (by decide), if_neg (by
    simp only [digit_eq 0]
    rintro (h | h | h | h)
    · exact hd 0 (by decide) h
    · exact hd 1 (by decide) h
    · exact hd 2 (by decide) h
    · exact hd 3 (by decide) h)]
  have h1 : ¬ (d.raw.icode ≠ 2 ∧ d.raw.icode ≠ 6) := fun h => h.2 rfl
  have h2 : ¬ d.raw.neips > 255 := Nat.not_lt.mpr ok.neips
  have h3 : ¬ (deletion d.raw.maxint).2 > 255 := by
    have := deletion_le ok.maxint
    show ¬ (deletion d.maxint).2 > 255
    omega
  rw [if_neg h1, if_neg h2, if_neg h3]
  rfl

theorem db_geoStart {d : Db} (ok : d.Ok) : geoStart d.buf = 64 := by
  unfold geoStart
  rw [db_ext ok, db_field ok (by decide) (by decide)]
  rfl

/-- Auxiliary: words of the geometry. -/
def Db.geo (d : Db) : Nat :=
  3 * d.nodes.length + 9 * d.solids.length + 9 * d.thicks.length + 6 * d.beams.length + 5 * d.shells.length

theorem db_geoLen (d : Db) : geoLen d.cda = d.geo := by
  unfold geoLen Db.geo
  have e1 : d.cda.raw.numnp = d.nodes.length := rfl
  have e2 : d.cda.raw.nel8 = (d.solids.length : Int) := rfl
  have e3 : d.cda.raw.nelt = d.thicks.length := rfl
  have e4 : d.cda.raw.nel2 = d.beams.length := rfl
  have e5 : d.cda.raw.nel4 = d.shells.length := rfl
  have e6 : d.cda.ndim = 3 := rfl
  rw [e1, e2, e3, e4, e5, e6]
  have : (if (d.solids.length : Int) > 0 then 0 else 2 * (d.solids.length : Int).natAbs) = 0 := by
    split <;> omega
  rw [this]
  omega

/-- Auxiliary: a word of the head of the ids. -/
theorem db_idHead {d : Db} (ok : d.Ok) {i : Nat} (h : i < 16) : wordAt d.buf (64 + d.geo + i) = d.idHead.getD i 0 := by
  have hl := header_length ok
  have hn : 16 ≤ d.narbs := by unfold Db.narbs; omega
  have hg : d.geo = 3 * d.nodes.length + 9 * d.solids.length + 9 * d.thicks.length + 6 * d.beams.length + 5 * d.shells.length := rfl
  rw [db_wordAt ok (by unfold Db.all; rw [List.length_append]; omega)]
  have e : d.all = (d.control ++ d.nodes.flatten ++ d.solids.flatten ++ d.thicks.flatten ++ d.beams.flatten ++ d.shells.flatten) ++
      (d.idHead ++ ((d.nodeIds ++ (d.solidIds ++ (d.beamIds ++ (d.shellIds ++ (d.thickIds ++ (d.partIds ++ (d.partOther ++
      [eofWord d.ws, eofWord d.ws]))))))) ++ (d.files.map (stepsWords d.ws)).flatten)) := by
    unfold Db.all Db.header
    simp only [List.append_assoc]
  have el : (d.control ++ d.nodes.flatten ++ d.solids.flatten ++ d.thicks.flatten ++ d.beams.flatten ++ d.shells.flatten).length =
      64 + d.geo := by
    unfold Db.control Db.fields Db.geo
    simp only [List.length_append, List.length_cons, List.length_nil, ok.title, flatten_length ok.nodes, flatten_length ok.solids,
      flatten_length ok.thicks, flatten_length ok.beams, flatten_length ok.shells]
    omega
  rw [e, List.getD_eq_getElem?_getD, List.getElem?_append_right (by rw [el]; omega), el,
    List.getElem?_append_left (by unfold Db.idHead; simp; omega), List.getD_eq_getElem?_getD, Nat.add_sub_cancel_left]

theorem db_idSign {d : Db} (ok : d.Ok) : signed d.buf.ws (wordAt d.buf (64 + d.geo)) < 0 := by
  have h := db_idHead ok (i := 0) (by decide)
  rw [Nat.add_zero] at h
  rw [h]
  show signed d.ws (signedWord d.ws (-1)) < 0
  rw [signed_signedWord (by have := half_big ok.ws; omega)]
  decide

theorem db_ids {d : Db} (ok : d.Ok) : IdsOk d.buf d.cda (64 + d.geo) := by
  have f := fun i h => @db_idHead d ok i h
  have hm : idMats d.buf d.cda (64 + d.geo) = d.partIds.length := by
    unfold idMats
    rw [if_pos (db_idSign ok), f 15 (by decide)]
    rfl
  have hh : idHead d.buf (64 + d.geo) = 16 := by
    unfold idHead
    rw [if_pos (db_idSign ok)]
  refine ⟨f 5 (by decide), ?_, f 7 (by decide), f 8 (by decide), f 9 (by decide), ?_⟩
  · rw [f 6 (by decide)]
    rfl
  · rw [hm, hh]
    show d.narbs = 16 + d.nodes.length + ((d.solids.length : Int)).toNat + d.beams.length + d.shells.length + d.thicks.length +
      3 * d.partIds.length
    rw [Int.toNat_natCast]
    rfl

theorem db_numrbs {d : Db} (ok : d.Ok) : numrbsOf d.buf d.cda = d.numrbs := by
  unfold numrbsOf
  have hn : ¬ d.cda.raw.narbs = 0 := by
    show ¬ d.narbs = 0
    unfold Db.narbs
    omega
  rw [if_neg hn, db_geoStart ok, db_geoLen]
  unfold idNumrbs
  rw [if_pos (db_idSign ok), db_idHead ok (by decide)]
  rfl

theorem flag_le (b : Bool) : flagWord b ≤ 1 := by cases b <;> decide

theorem db_stateOk {d : Db} (ok : d.Ok) : StateOk d.cda (numrbsOf d.buf d.cda) := by
  rw [db_numrbs ok]
  refine ⟨rfl, ?_, flag_le _, flag_le _, flag_le _, ok.globals⟩
  show 0 ≤ (d.solids.length : Int)
  omega

/-- Auxiliary: words of the states. -/
theorem step_length {d : Db} {s : Step} (h : StepOk d s) : s.words.length = stateLen d.cda := by
  unfold Step.words stateLen offDeletion offThick offShell offBeam offSolid offThermal offAcc offVel offCoords deletionLen nodeLen
  have e1 : d.cda.raw.numnp = d.nodes.length := rfl
  have e2 : d.cda.raw.nel8 = (d.solids.length : Int) := rfl
  have e3 : d.cda.raw.nelt = d.thicks.length := rfl
  have e4 : d.cda.raw.nel2 = d.beams.length := rfl
  have e5 : d.cda.raw.nel4 = d.shells.length := rfl
  have e6 : d.cda.raw.nv3d = d.nv3d := rfl
  have e7 : d.cda.raw.nv1d = d.nv1d := rfl
  have e8 : d.cda.raw.nv2d = d.nv2d := rfl
  have e9 : d.cda.raw.nv3dt = d.nv3dt := rfl
  have f1 : d.cda.raw.iu = flagWord d.hasCoords := rfl
  have f2 : d.cda.raw.iv = flagWord d.hasVelocity := rfl
  have f3 : d.cda.raw.ia = flagWord d.hasAcceleration := rfl
  have f4 : d.cda.raw.nglbv = d.nglbv := rfl
  have f5 : d.cda.ext.nt3d = 0 := rfl
  have f6 : d.cda.mdlopt = (deletion d.maxint).1 := rfl
  have hf : ∀ b : Bool, (if flagWord b = 0 then 0 else 3 * d.nodes.length) = if b then 3 * d.nodes.length else 0 := by
    intro b
    cases b <;> simp [flagWord]
  rw [e1, e2, e3, e4, e5, e6, e7, e8, e9, f1, f2, f3, f4, f5, f6, hf, hf, hf, Int.toNat_natCast]
  simp only [List.length_cons, List.length_append, h.globals, h.coords, h.velocity, h.acceleration, flatten_length h.solids.2,
    flatten_length h.beams.2, flatten_length h.shells.2, flatten_length h.thicks.2, h.solids.1, h.beams.1, h.shells.1, h.thicks.1, h.deleted]
  have hd : (if (deletion d.maxint).1 = 0 then 0 else if (deletion d.maxint).1 = 1 then d.nodes.length
      else d.solids.length + d.thicks.length + d.shells.length + d.beams.length) =
      if 0 ≤ d.maxint then 0 else if d.maxint < -10000 then d.solids.length + d.thicks.length + d.shells.length + d.beams.length
        else d.nodes.length := by
    unfold deletion
    by_cases h1 : d.maxint ≥ 0
    · simp [h1]
    · by_cases h2 : d.maxint < -10000
      · simp [h1, h2]
      · simp [h1, h2]
  rw [hd]
  omega

/-! ## States -/

theorem steps_length {d : Db} {f : List Step} (h : ∀ s ∈ f, StepOk d s) :
    (f.flatMap Step.words).length = f.length * stateLen d.cda := by
  induction f with
  | nil => simp
  | cons x xs ih =>
    rw [List.flatMap_cons, List.length_append, ih fun s hs => h s (by simp [hs]), step_length (h x (by simp)), List.length_cons,
      Nat.succ_mul]
    omega

theorem steps_drop {d : Db} {r : Nat} {s : Step} : ∀ {f : List Step} (_ : ∀ s ∈ f, StepOk d s) (_ : f[r]? = some s),
    ∃ rest, (stepsWords d.ws f).drop (r * stateLen d.cda) = s.words ++ rest := by
  induction r with
  | zero =>
    intro f _ hr
    cases f with
    | nil => simp at hr
    | cons x xs =>
      rw [List.getElem?_cons_zero, Option.some.injEq] at hr
      subst hr
      refine ⟨xs.flatMap Step.words ++ [eofWord d.ws], ?_⟩
      unfold stepsWords
      simp
  | succ r ih =>
    intro f h hr
    cases f with
    | nil => simp at hr
    | cons x xs =>
      obtain ⟨rest, e⟩ := ih (f := xs) (fun s hs => h s (by simp [hs])) (by simpa using hr)
      refine ⟨rest, ?_⟩
      rw [← e]
      unfold stepsWords
      have hx := step_length (h x (by simp))
      rw [List.flatMap_cons, List.append_assoc, Nat.succ_mul, Nat.add_comm, ← List.drop_drop, ← hx, List.drop_left]

theorem stepsWords_length {d : Db} {f : List Step} (h : ∀ s ∈ f, StepOk d s) :
    (stepsWords d.ws f).length = f.length * stateLen d.cda + 1 := by
  unfold stepsWords
  rw [List.length_append, steps_length h]
  rfl

theorem stepsWords_small {d : Db} (hw : d.ws = 4 ∨ d.ws = 8) {f : List Step} (h : ∀ s ∈ f, StepOk d s) :
    ∀ w ∈ stepsWords d.ws f, w < 256 ^ d.ws := by
  intro w hwm
  unfold stepsWords at hwm
  rcases List.mem_append.mp hwm with hm | hm
  · obtain ⟨s, hs, hx⟩ := List.mem_flatMap.mp hm
    exact (h s hs).small w hx
  · rw [List.mem_singleton.mp hm]
    exact eofWord_lt hw

theorem stateLen_pos (c : Cda) : 1 ≤ stateLen c := by
  unfold stateLen offDeletion offThick offShell offBeam offSolid offThermal offAcc offVel offCoords
  omega

/-- Auxiliary: words of a state in its file. -/
theorem file_slice {d : Db} (hw : d.ws = 4 ∨ d.ws = 8) {f : List Step} (h : ∀ s ∈ f, StepOk d s) {r : Nat} {s : Step}
    (hr : f[r]? = some s) {off n : Nat} (hn : off + n ≤ s.words.length) :
    fileWords d.ws (packWords d.ws (stepsWords d.ws f)) (r * stateLen d.cda + off) n = (s.words.drop off).take n := by
  have hlt : r < f.length := (List.getElem?_eq_some_iff.mp hr).1
  have hs : s.words.length = stateLen d.cda := step_length (h s (List.mem_of_getElem? hr))
  have hm : (r + 1) * stateLen d.cda ≤ f.length * stateLen d.cda := Nat.mul_le_mul_right _ hlt
  rw [Nat.succ_mul] at hm
  obtain ⟨rest, e⟩ := steps_drop h hr
  unfold fileWords fileWord
  rw [pack_slice (stepsWords_small hw h) (by rw [stepsWords_length h]; omega), ← List.drop_drop, e,
    List.drop_append_of_le_length (by omega), List.take_append_of_le_length (by simp; omega)]

theorem db_stateFile {d : Db} (hw : d.ws = 4 ∨ d.ws = 8) {f : List Step} (h : ∀ s ∈ f, StepOk d s) :
    StateFile d.ws (stateLen d.cda) (packWords d.ws (stepsWords d.ws f)) f.length := by
  refine ⟨?_, ?_, ?_⟩
  · rw [pack_length, stepsWords_length h]
    exact Nat.le_refl _
  · intro i hi he
    have hr : f[i]? = some f[i] := List.getElem?_eq_getElem hi
    have ok := h f[i] (List.getElem_mem hi)
    have e := file_slice hw h hr (off := 0) (n := 1) (by unfold Step.words; simp)
    unfold fileWords at e
    simp only [List.range_one, List.map_cons, List.map_nil, Nat.add_zero, List.drop_zero] at e
    rw [he] at e
    have e2 : [leNat (eofBytes d.ws)] = [f[i].time] := e
    rw [List.cons.injEq] at e2
    exact ok.time e2.1.symm
  · have hl := stepsWords_length h
    unfold fileWord
    rw [pack_word _ _ _ (by omega)]
    unfold stepsWords
    rw [List.getD_eq_getElem?_getD, List.getElem?_append_right (by rw [steps_length h]; omega), steps_length h, Nat.sub_self]
    exact eofWord_bytes hw

/-! ## Opening -/

theorem db_open {d : Db} (ok : d.Ok) : openBuf d.write = .ok d.buf := by
  have hl := header_length ok
  have hlong : 184 ≤ d.write.flatten.length := by
    rw [write_flatten, pack_length]
    unfold Db.all
    rw [List.length_append, hl]
    have : 4 ≤ d.ws := by have := ok.ws; omega
    have h2 : 66 * 4 ≤ (64 + (3 * d.nodes.length + 9 * d.solids.length + 9 * d.thicks.length + 6 * d.beams.length + 5 * d.shells.length) +
        d.narbs + 2 + (d.files.map (stepsWords d.ws)).flatten.length) * d.ws := Nat.mul_le_mul (by omega) this
    omega
  have hp : Plausible d.write.flatten d.ws := by
    have f := fun k h1 h2 => @db_field d ok k h1 h2
    have f' : ∀ k, 10 ≤ k → k < 64 → ctrl d.write.flatten d.ws k = d.fields.getD (k - 10) 0 := f
    refine ⟨?_, ?_, ?_, ?_, ?_⟩
    · rw [f' 15 (by decide) (by decide)]
      show 2 ≤ 4 ∧ 4 ≤ 7
      decide
    · rw [f' 17 (by decide) (by decide)]
      exact .inr rfl
    · rw [f' 11 (by decide) (by decide)]
      refine .inl ?_
      show 1 ≤ 1 ∧ 1 ≤ 13
      decide
    · rw [f' 19 (by decide) (by decide)]
      refine .inl ?_
      show 0 ≤ 3
      decide
    · rw [f' 22 (by decide) (by decide)]
      show flagWord d.hasAcceleration = 0 ∨ flagWord d.hasAcceleration = 1
      cases d.hasAcceleration
      · exact .inl rfl
      · exact .inr rfl
  have hsz : d.write.flatten.length < u64 := by
    have := ok.size
    unfold u64
    omega
  have hc := c29_word_size_partial hlong hsz
  unfold Db.buf
  have ho := ok.otherSize
  rcases ok.ws with h | h <;> rw [h] at hp ho ⊢
  · exact hc.1 hp ho
  · exact hc.2.1 ho hp


theorem db_eofPos {d : Db} (ok : d.Ok) : eofPos d.buf d.cda = 64 + d.geo + d.narbs := by
  unfold eofPos
  rw [db_geoStart ok, db_geoLen]
  have e1 : d.cda.raw.narbs = d.narbs := rfl
  have e2 : d.cda.raw.nadapt = 0 := rfl
  have e3 : extraConnectivity d.cda = 0 := by
    unfold extraConnectivity
    have h1 : d.cda.raw.nel8 = (d.solids.length : Int) := rfl
    have h2 : d.cda.raw.nel48 = 0 := rfl
    have h3 : d.cda.ext = {} := rfl
    rw [h1, h2, h3, if_neg (by omega)]
    rfl
  rw [e1, e2, e3]
  simp

theorem db_eofs {d : Db} (ok : d.Ok) {i : Nat} (hi : i < 2) : wordBytes d.buf (64 + d.geo + d.narbs + i) = eofBytes d.buf.ws := by
  have hl := header_length ok
  have hg : d.geo = 3 * d.nodes.length + 9 * d.solids.length + 9 * d.thicks.length + 6 * d.beams.length + 5 * d.shells.length := rfl
  unfold wordBytes Buf.bytes
  show (d.write.flatten.drop ((64 + d.geo + d.narbs + i) * d.ws)).take d.ws = eofBytes d.ws
  rw [write_flatten, pack_word _ _ _ (by unfold Db.all; rw [List.length_append]; omega), ← eofWord_bytes ok.ws]
  congr 1
  have e : ∃ a, d.header = a ++ [eofWord d.ws, eofWord d.ws] := by
    unfold Db.header
    simp only [← List.append_assoc]
    exact ⟨_, rfl⟩
  obtain ⟨a, e⟩ := e
  have ha : a.length = 64 + d.geo + d.narbs := by
    have := congrArg List.length e
    rw [hl, List.length_append] at this
    simp only [List.length_cons, List.length_nil] at this
    omega
  unfold Db.all
  rw [e, List.append_assoc, List.getD_eq_getElem?_getD, List.getElem?_append_right (by omega), ha, Nat.add_sub_cancel_left]
  match i, hi with
  | 0, _ => rfl
  | 1, _ => rfl

theorem db_family {d : Db} (ok : d.Ok) :
    Family d.buf d.cda (packWords d.ws d.header) (d.files.map fun f => packWords d.ws (stepsWords d.ws f)) (d.files.map List.length)
      (eofPos d.buf d.cda + 2) (ptrsIds d.buf d.cda) where
  good := good ok
  buffer := db_open ok
  files := by
    show d.write = _
    unfold Db.write
    rw [List.map_cons, List.map_map]
    rfl
  nonempty := by
    intro h
    exact ok.nonempty (List.map_eq_nil_iff.mp h)
  fileType := .inl (by rw [db_field ok (by decide) (by decide)]; rfl)
  extra := .inl (by rw [db_field ok (by decide) (by decide)]; rfl)
  control := db_derive ok
  supported := rfl
  unpacked := rfl
  noCfd := by
    show 0 ≠ 67108864
    decide
  ids := .inr (by rw [db_geoStart ok, db_geoLen]; exact db_ids ok)
  geometryEnd := by
    rw [db_eofPos ok]
    exact db_eofs ok (i := 0) (by decide)
  headerBlocks := .finish (by
    rw [db_eofPos ok]
    exact db_eofs ok (i := 1) (by decide))
  headerInFirst := by
    rw [pack_length, header_length ok, db_eofPos ok]
    exact Nat.le_refl _
  state := db_stateOk ok
  counts := by simp
  states := by
    intro j f n hf hn
    rw [List.getElem?_map] at hf hn
    cases hj : d.files[j]? with
    | none => rw [hj] at hf; exact nomatch hf
    | some g =>
      rw [hj] at hf hn
      simp only [Option.map_some, Option.some.injEq] at hf hn
      subst hf hn
      exact db_stateFile ok.ws (ok.steps g (List.mem_of_getElem? hj))

/-- Auxiliary: the opened database. -/
theorem db_plot {d : Db} (ok : d.Ok) : ∃ p states, openPlot d.write = .ok ⟨d.cda, d.numrbs, p, states, d.buf⟩ ∧
    (p = ptrsIds d.buf d.cda ∨ p = statePtrs d.cda (ptrsIds d.buf d.cda)) := by
  have F := db_family ok
  have h := openPlot_at F.good F.buffer F.fileType F.extra F.control F.supported F.files F.nonempty F.counts
    F.unpacked F.state F.ids F.geometryEnd F.headerBlocks F.headerInFirst F.noCfd F.states
  rw [db_numrbs ok] at h
  refine ⟨_, _, h, ?_⟩
  unfold ptrsAfter
  split
  · exact .inr rfl
  · exact .inl rfl

/-! ## Reading -/

/-- Specification: an element as the library shows it. All numbers begin with 0. -/
def specCon (ws : Nat) (nodes : List Nat) (material : Nat) (e : List Nat) : Con :=
  ⟨nodes.map fun i => zeroBased ws (e.getD i 0), zeroBased ws (e.getD material 0)⟩

theorem cons_flatten {ws : Nat} (k : Nat) : ∀ (l : List (List Nat)), (∀ e ∈ l, e.length = k + 1) → (∀ w ∈ l.flatten, w < 256 ^ ws) →
    cons ws k l.length l.flatten = l.map (specCon ws (List.range k) k)
  | [], _, _ => rfl
  | e :: es, h, hs => by
    have he : e.length = k + 1 := h e (by simp)
    have hw : ∀ w ∈ e, w < 256 ^ ws := fun w hw => hs w (by rw [List.flatten_cons]; exact List.mem_append_left _ hw)
    have ih := cons_flatten k es (fun x hx => h x (by simp [hx]))
      (fun w hw => hs w (by rw [List.flatten_cons]; exact List.mem_append_right _ hw))
    rw [List.length_cons, List.flatten_cons, cons, List.map_cons, ← ih, List.drop_append_of_le_length (by omega),
      List.drop_of_length_le (by omega), List.nil_append, List.take_append_of_le_length (by omega)]
    congr 1
    unfold specCon
    congr 1
    · apply List.ext_getElem
      · simp; omega
      · intro i h1 h2
        have hi : i < k := by simpa using h2
        simp only [List.getElem_map, List.getElem_take, List.getElem_range]
        rw [minusOne_eq (hw _ (List.getElem_mem _)), List.getD_eq_getElem?_getD, List.getElem?_eq_getElem (by omega)]
        rfl
    · rw [List.getD_eq_getElem?_getD, List.getElem?_append_left (by omega), List.getD_eq_getElem?_getD,
        List.getElem?_eq_getElem (by omega)]
      exact minusOne_eq (hw _ (List.getElem_mem _))

theorem beamCons_flatten {ws : Nat} : ∀ (l : List (List Nat)), (∀ e ∈ l, e.length = 6) → (∀ w ∈ l.flatten, w < 256 ^ ws) →
    beamCons ws l.length l.flatten = l.map (specCon ws [0, 1, 2] 5)
  | [], _, _ => rfl
  | e :: es, h, hs => by
    have he : e.length = 6 := h e (by simp)
    have hw : ∀ w ∈ e, w < 256 ^ ws := fun w hw => hs w (by rw [List.flatten_cons]; exact List.mem_append_left _ hw)
    have ih := beamCons_flatten es (fun x hx => h x (by simp [hx]))
      (fun w hw => hs w (by rw [List.flatten_cons]; exact List.mem_append_right _ hw))
    rw [List.length_cons, List.flatten_cons, beamCons, List.map_cons, ← ih, List.drop_append_of_le_length (by omega),
      List.drop_of_length_le (by omega), List.nil_append, List.take_append_of_le_length (by omega)]
    congr 1
    unfold specCon
    congr 1
    · apply List.ext_getElem
      · simp; omega
      · intro i h1 h2
        have hi : i < 3 := by simpa using h2
        simp only [List.getElem_map, List.getElem_take]
        rw [minusOne_eq (hw _ (List.getElem_mem _))]
        match i, hi with
        | 0, _ => simp [List.getD_eq_getElem?_getD, List.getElem?_eq_getElem (show 0 < e.length by omega)]
        | 1, _ => simp [List.getD_eq_getElem?_getD, List.getElem?_eq_getElem (show 1 < e.length by omega)]
        | 2, _ => simp [List.getD_eq_getElem?_getD, List.getElem?_eq_getElem (show 2 < e.length by omega)]
    · rw [List.getD_eq_getElem?_getD, List.getElem?_append_left (by omega), List.getD_eq_getElem?_getD,
        List.getElem?_eq_getElem (by omega)]
      exact minusOne_eq (hw _ (List.getElem_mem _))

/-- Auxiliary: a section of the first file is read. -/
theorem db_read {d : Db} (ok : d.Ok) {p : Plot} (hp : p.buf = d.buf) {a b c : List Nat} (h : d.all = a ++ (b ++ c)) {k n : Nat}
    (hk : a.length = k) (hn : b.length = n) (hpos : 0 < n) : readAt p n k = .ok (p, some b) := by
  have hl := congrArg List.length h
  rw [List.length_append, List.length_append, hk, hn] at hl
  have hw := db_words ok
  rw [readAt_at (p := p) (by rw [hp]; exact good ok) (by rw [hp]; omega) (by rw [hp]; omega), hp, db_section ok h hk hn]

/-- Auxiliary: a section with ids is read. -/
theorem db_readIds {d : Db} (ok : d.Ok) {p : Plot} (hp : p.buf = d.buf) {a b c : List Nat} (h : d.all = a ++ (b ++ c)) {k n : Nat}
    (hk : a.length = k) (hn : b.length = n) : readIds p k n = .ok (p, some b) := by
  unfold readIds
  by_cases h0 : n = 0
  · rw [if_pos h0]
    rw [h0] at hn
    rw [List.length_eq_zero_iff.mp hn]
  · rw [if_neg h0, db_read ok hp h hk hn (by omega)]

/-- Auxiliary: the pointers into the first file. -/
theorem db_ptrs {d : Db} (ok : d.Ok) {p : Ptrs} (hp : p = ptrsIds d.buf d.cda ∨ p = statePtrs d.cda (ptrsIds d.buf d.cda)) :
    p.el8Connect = 64 + 3 * d.nodes.length ∧
    (d.thicks.length ≠ 0 → p.eltConnect = 64 + 3 * d.nodes.length + 9 * d.solids.length) ∧
    (d.beams.length ≠ 0 → p.el2Connect = 64 + 3 * d.nodes.length + 9 * d.solids.length + 9 * d.thicks.length) ∧
    (d.shells.length ≠ 0 → p.el4Connect = 64 + 3 * d.nodes.length + 9 * d.solids.length + 9 * d.thicks.length + 6 * d.beams.length) ∧
    p.nodeIds = 64 + d.geo + 16 ∧
    p.el8Ids = 64 + d.geo + 16 + d.nodes.length ∧
    p.el2Ids = 64 + d.geo + 16 + d.nodes.length + d.solids.length ∧
    p.el4Ids = 64 + d.geo + 16 + d.nodes.length + d.solids.length + d.beams.length ∧
    p.eltIds = 64 + d.geo + 16 + d.nodes.length + d.solids.length + d.beams.length + d.shells.length ∧
    p.partIds = 64 + d.geo + 16 + d.nodes.length + d.solids.length + d.beams.length + d.shells.length + d.thicks.length := by
  have hx : ∀ {α : Type} (f : Ptrs → α), (∀ q c, f (statePtrs c q) = f q) → f p = f (ptrsIds d.buf d.cda) := by
    intro α f hf
    rcases hp with rfl | rfl
    · rfl
    · exact hf _ _
  rw [hx (·.el8Connect) (fun _ _ => rfl), hx (·.eltConnect) (fun _ _ => rfl), hx (·.el2Connect) (fun _ _ => rfl),
    hx (·.el4Connect) (fun _ _ => rfl), hx (·.nodeIds) (fun _ _ => rfl), hx (·.el8Ids) (fun _ _ => rfl), hx (·.el2Ids) (fun _ _ => rfl),
    hx (·.el4Ids) (fun _ _ => rfl), hx (·.eltIds) (fun _ _ => rfl), hx (·.partIds) (fun _ _ => rfl)]
  have hn : ¬ d.cda.raw.narbs = 0 := by
    show ¬ d.narbs = 0
    unfold Db.narbs
    omega
  have e1 : d.cda.raw.numnp = d.nodes.length := rfl
  have e2 : d.cda.raw.nel8 = (d.solids.length : Int) := rfl
  have e3 : d.cda.raw.nelt = d.thicks.length := rfl
  have e4 : d.cda.raw.nel2 = d.beams.length := rfl
  have e5 : d.cda.raw.nel4 = d.shells.length := rfl
  have e6 : d.cda.ndim = 3 := rfl
  have e7 : (if (d.solids.length : Int) > 0 then 0 else 2 * d.solids.length) = 0 := by
    split <;> omega
  have hs := db_idSign ok
  have e8 : idHead d.buf (64 + d.geo) = 16 := by
    unfold idHead
    rw [if_pos hs]
  unfold ptrsIds
  simp only
  rw [if_neg hn, db_geoStart ok, db_geoLen]
  unfold idPtrs geoPtrs
  simp only [e1, e2, e3, e4, e5, e6, e7, e8, if_pos hs, Int.toNat_natCast, Nat.add_zero, Int.natAbs_natCast]
  refine ⟨by omega, ?_, ?_, ?_, trivial, trivial, trivial, trivial, trivial, trivial⟩
  · intro h
    rw [if_pos (by omega)]
    omega
  · intro h
    rw [if_pos (by omega)]
    omega
  · intro h
    rw [if_pos (by omega)]
    omega

set_option maxHeartbeats 1600000 in
/-- Auxiliary: the sections of the first file. -/
theorem db_first {d : Db} (ok : d.Ok) {c : Cda} {m : Nat} {p : Ptrs} {st : List Nat} (hc : c = d.cda)
    (hp : p = ptrsIds d.buf d.cda ∨ p = statePtrs d.cda (ptrsIds d.buf d.cda)) :
    let plot : Plot := ⟨c, m, p, st, d.buf⟩
    readTitle plot = .ok (plot, some d.title) ∧
    readRunTime plot = .ok (plot, some [d.runTime]) ∧
    readSolidElements plot = .ok (plot, some (d.solids.map (specCon d.ws [0, 1, 2, 3, 4, 5, 6, 7] 8))) ∧
    readThickElements plot = .ok (plot, some (d.thicks.map (specCon d.ws [0, 1, 2, 3, 4, 5, 6, 7] 8))) ∧
    readBeamElements plot = .ok (plot, some (d.beams.map (specCon d.ws [0, 1, 2] 5))) ∧
    readShellElements plot = .ok (plot, some (d.shells.map (specCon d.ws [0, 1, 2, 3] 4))) ∧
    readNodeIds plot = .ok (plot, some d.nodeIds) ∧
    readSolidIds plot = .ok (plot, some d.solidIds) ∧
    readBeamIds plot = .ok (plot, some d.beamIds) ∧
    readShellIds plot = .ok (plot, some d.shellIds) ∧
    readThickIds plot = .ok (plot, some d.thickIds) ∧
    readPartIds plot = .ok (plot, some d.partIds) := by
  subst hc
  intro plot
  obtain ⟨p1, p2, p3, p4, p5, p6, p7, p8, p9, p10⟩ := db_ptrs ok hp
  have hb : plot.buf = d.buf := rfl
  have hbw : plot.buf.ws = d.ws := rfl
  have e2 : plot.cda.raw.nel8 = (d.solids.length : Int) := rfl
  have e3 : plot.cda.raw.nelt = d.thicks.length := rfl
  have e4 : plot.cda.raw.nel2 = d.beams.length := rfl
  have e5 : plot.cda.raw.nel4 = d.shells.length := rfl
  have hg : d.geo = 3 * d.nodes.length + 9 * d.solids.length + 9 * d.thicks.length + 6 * d.beams.length + 5 * d.shells.length := rfl
  have l1 := flatten_length ok.nodes
  have l2 := flatten_length ok.solids
  have l3 := flatten_length ok.thicks
  have l4 := flatten_length ok.beams
  have l5 := flatten_length ok.shells
  have lc : d.control.length = 64 := by
    unfold Db.control Db.fields
    simp [ok.title]
  have lh : d.idHead.length = 16 := rfl
  have m1 := ok.nodeIds
  have m2 := ok.solidIds
  have m3 := ok.beamIds
  have m4 := ok.shellIds
  have m5 := ok.thickIds
  have hlen : d.solids.length < u64 := by
    have h1 := ok.size
    have h2 : d.solids.length ≤ d.write.flatten.length := by
      rw [write_flatten, pack_length]
      unfold Db.all
      rw [List.length_append, header_length ok]
      have : 1 ≤ d.ws := by have := ok.ws; omega
      refine Nat.le_trans ?_ (Nat.le_mul_of_pos_right _ this)
      omega
    unfold u64
    omega
  have h8 : toU64 plot.cda.raw.nel8 = d.solids.length := by
    rw [e2, toU64_nonneg (by omega) (by rw [Int.toNat_natCast]; exact hlen), Int.toNat_natCast]
  have hsm : ∀ w ∈ d.all, w < 256 ^ d.ws := all_small ok
  have sec : ∀ {a b c : List Nat}, d.all = a ++ (b ++ c) → ∀ w ∈ b, w < 256 ^ d.ws := by
    intro a b c h w hw
    refine hsm w ?_
    rw [h]
    exact List.mem_append_right _ (List.mem_append_left _ hw)
  have a0 : d.all = [] ++ (d.title ++ (d.fields ++ (d.nodes.flatten ++ (d.solids.flatten ++ (d.thicks.flatten ++ (d.beams.flatten ++
      (d.shells.flatten ++ (d.idHead ++ (d.nodeIds ++ (d.solidIds ++ (d.beamIds ++ (d.shellIds ++ (d.thickIds ++ (d.partIds ++
      (d.partOther ++ ([eofWord d.ws, eofWord d.ws] ++ (d.files.map (stepsWords d.ws)).flatten)))))))))))))))) := by
    unfold Db.all Db.header Db.control
    simp only [List.append_assoc, List.nil_append]
  have a1 : d.all = d.title ++ ([d.runTime] ++ (d.fields.tail ++ (d.nodes.flatten ++ (d.solids.flatten ++ (d.thicks.flatten ++ (d.beams.flatten ++
      (d.shells.flatten ++ (d.idHead ++ (d.nodeIds ++ (d.solidIds ++ (d.beamIds ++ (d.shellIds ++ (d.thickIds ++ (d.partIds ++
      (d.partOther ++ ([eofWord d.ws, eofWord d.ws] ++ (d.files.map (stepsWords d.ws)).flatten)))))))))))))))) := by
    rw [a0, List.nil_append]
    rfl
  have a2 := a0
  rw [List.nil_append, ← List.append_assoc d.title, ← List.append_assoc (d.title ++ d.fields)] at a2
  have a3 := a2
  rw [← List.append_assoc _ d.solids.flatten] at a3
  have a4 := a3
  rw [← List.append_assoc _ d.thicks.flatten] at a4
  have a5 := a4
  rw [← List.append_assoc _ d.beams.flatten] at a5
  have a6 := a5
  rw [← List.append_assoc _ d.shells.flatten, ← List.append_assoc _ d.idHead] at a6
  have a7 := a6
  rw [← List.append_assoc _ d.nodeIds] at a7
  have a8 := a7
  rw [← List.append_assoc _ d.solidIds] at a8
  have a9 := a8
  rw [← List.append_assoc _ d.beamIds] at a9
  have a10 := a9
  rw [← List.append_assoc _ d.shellIds] at a10
  have a11 := a10
  rw [← List.append_assoc _ d.thickIds] at a11
  have lc' : d.title.length + d.fields.length = 64 := by
    rw [← List.length_append]
    exact lc
  refine ⟨?_, ?_, ?_, ?_, ?_, ?_, ?_, ?_, ?_, ?_, ?_, ?_⟩
  · exact db_read ok hb a0 rfl ok.title (by decide)
  · exact db_read ok hb a1 ok.title rfl (by decide)
  · unfold readSolidElements
    by_cases h0 : plot.cda.raw.nel8 ≤ 0
    · rw [if_pos h0]
      rw [e2] at h0
      rw [List.length_eq_zero_iff.mp (show d.solids.length = 0 by omega)]
      rfl
    · rw [if_neg h0]
      rw [e2] at h0
      rw [h8, show plot.ptrs.el8Connect = 64 + 3 * d.nodes.length from p1,
        db_read ok hb a2 (by simp only [List.length_append]; omega) l2 (by omega)]
      exact congrArg (fun l => Res.ok (plot, some l)) (cons_flatten 8 _ ok.solids (sec a2))
  · unfold readThickElements
    by_cases h0 : plot.cda.raw.nelt = 0
    · rw [if_pos h0]
      rw [e3] at h0
      rw [List.length_eq_zero_iff.mp h0]
      rfl
    · rw [if_neg h0]
      rw [e3] at h0 ⊢
      rw [show plot.ptrs.eltConnect = _ from p2 h0, db_read ok hb a3 (by simp only [List.length_append]; omega) l3 (by omega)]
      exact congrArg (fun l => Res.ok (plot, some l)) (cons_flatten 8 _ ok.thicks (sec a3))
  · unfold readBeamElements
    by_cases h0 : plot.cda.raw.nel2 = 0
    · rw [if_pos h0]
      rw [e4] at h0
      rw [List.length_eq_zero_iff.mp h0]
      rfl
    · rw [if_neg h0]
      rw [e4] at h0 ⊢
      rw [show plot.ptrs.el2Connect = _ from p3 h0, db_read ok hb a4 (by simp only [List.length_append]; omega) l4 (by omega)]
      exact congrArg (fun l => Res.ok (plot, some l)) (beamCons_flatten _ ok.beams (sec a4))
  · unfold readShellElements
    by_cases h0 : plot.cda.raw.nel4 = 0
    · rw [if_pos h0]
      rw [e5] at h0
      rw [List.length_eq_zero_iff.mp h0]
      rfl
    · rw [if_neg h0]
      rw [e5] at h0 ⊢
      rw [show plot.ptrs.el4Connect = _ from p4 h0, db_read ok hb a5 (by simp only [List.length_append]; omega) l5 (by omega)]
      exact congrArg (fun l => Res.ok (plot, some l)) (cons_flatten 4 _ ok.shells (sec a5))
  · unfold readNodeIds
    rw [show plot.ptrs.nodeIds = _ from p5]
    exact db_readIds ok hb a6 (by simp only [List.length_append]; omega) m1
  · unfold readSolidIds
    rw [show plot.ptrs.el8Ids = _ from p6]
    exact db_readIds ok hb a7 (by simp only [List.length_append]; omega) (by rw [h8]; exact m2)
  · unfold readBeamIds
    rw [show plot.ptrs.el2Ids = _ from p7]
    exact db_readIds ok hb a8 (by simp only [List.length_append]; omega) m3
  · unfold readShellIds
    rw [show plot.ptrs.el4Ids = _ from p8]
    exact db_readIds ok hb a9 (by simp only [List.length_append]; omega) m4
  · unfold readThickIds
    rw [show plot.ptrs.eltIds = _ from p9]
    exact db_readIds ok hb a10 (by simp only [List.length_append]; omega) m5
  · unfold readPartIds
    have : ¬ plot.ptrs.partIds = 0 := by
      rw [show plot.ptrs.partIds = _ from p10]
      omega
    rw [if_neg this, show plot.ptrs.partIds = _ from p10]
    exact db_readIds ok hb a11 (by simp only [List.length_append]; omega) rfl

/-! ## C105 -/

/-- C105: a database that is written as the format prescribes is opened, and the library gives back its contents: title, run time, the nodes
and the materials of the elements (beginning with 0), the ids, as many states as have been written, and of each state, in whatever file it
is, the time and the data of the nodes. -/
theorem c105_round_trip {d : Db} (ok : d.Ok) : ∃ plot, openPlot d.write = .ok plot ∧
    plot.states.length = (d.files.map List.length).sum ∧
    readTitle plot = .ok (plot, some d.title) ∧
    readRunTime plot = .ok (plot, some [d.runTime]) ∧
    readSolidElements plot = .ok (plot, some (d.solids.map (specCon d.ws [0, 1, 2, 3, 4, 5, 6, 7] 8))) ∧
    readThickElements plot = .ok (plot, some (d.thicks.map (specCon d.ws [0, 1, 2, 3, 4, 5, 6, 7] 8))) ∧
    readBeamElements plot = .ok (plot, some (d.beams.map (specCon d.ws [0, 1, 2] 5))) ∧
    readShellElements plot = .ok (plot, some (d.shells.map (specCon d.ws [0, 1, 2, 3] 4))) ∧
    readNodeIds plot = .ok (plot, some d.nodeIds) ∧
    readSolidIds plot = .ok (plot, some d.solidIds) ∧
    readBeamIds plot = .ok (plot, some d.beamIds) ∧
    readShellIds plot = .ok (plot, some d.shellIds) ∧
    readThickIds plot = .ok (plot, some d.thickIds) ∧
    readPartIds plot = .ok (plot, some d.partIds) ∧
    ∀ (j r : Nat) (f : List Step) (s : Step), d.files[j]? = some f → f[r]? = some s →
      let i := ((d.files.map List.length).take j).sum + r
      readTime plot i = .ok (plot, some [s.time]) ∧
      (d.hasCoords = true → readCoordinates plot i = .ok (plot, some s.coords)) ∧
      (d.hasVelocity = true → readVelocity plot i = .ok (plot, some s.velocity)) ∧
      (d.hasAcceleration = true → readAcceleration plot i = .ok (plot, some s.acceleration)) := by
  obtain ⟨p, states, ho, hp⟩ := db_plot ok
  obtain ⟨plot, ho', hc, hlen, hst⟩ := c32_states (db_family ok)
  have hf := (db_family ok).files
  rw [← hf] at ho'
  have hb : d.buf.files = d.write := rfl
  rw [hb, ho] at ho'
  have he : plot = ⟨d.cda, d.numrbs, p, states, d.buf⟩ := ((Res.ok.injEq _ _).mp ho').symm
  obtain ⟨r1, r2, r3, r4, r5, r6, r7, r8, r9, r10, r11, r12⟩ := db_first ok (c := d.cda) (m := d.numrbs) (st := states) rfl hp
  rw [← he] at r1 r2 r3 r4 r5 r6 r7 r8 r9 r10 r11 r12
  refine ⟨plot, by rw [ho, he], hlen, r1, r2, r3, r4, r5, r6, r7, r8, r9, r10, r11, r12, ?_⟩
  intro j r f s hj hr
  have hfile : (d.files.map fun f => packWords d.ws (stepsWords d.ws f))[j]? = some (packWords d.ws (stepsWords d.ws f)) := by
    rw [List.getElem?_map, hj]
    rfl
  have hn : (d.files.map List.length)[j]? = some f.length := by
    rw [List.getElem?_map, hj]
    rfl
  obtain ⟨t1, t2, t3, t4, -⟩ := hst j f.length r _ hfile hn (List.getElem?_eq_some_iff.mp hr).1
  have hsteps := ok.steps f (List.mem_of_getElem? hj)
  have so := hsteps s (List.mem_of_getElem? hr)
  have sl := fun (off n : Nat) h => @file_slice d ok.ws f hsteps r s hr off n h
  have hnum : d.cda.raw.numnp = d.nodes.length := rfl
  have hgl : d.cda.raw.nglbv = d.nglbv := rfl
  have hbw : d.buf.ws = d.ws := rfl
  have hlw : s.words.length = 1 + s.globals.length + s.coords.length + s.velocity.length + s.acceleration.length +
      (s.solids.flatten ++ (s.beams.flatten ++ (s.shells.flatten ++ (s.thicks.flatten ++ s.deleted)))).length := by
    unfold Step.words
    simp only [List.length_cons, List.length_append]
    omega
  have o1 := so.globals
  have o2 := so.coords
  have o3 := so.velocity
  have o4 := so.acceleration
  have u1 : d.cda.raw.iu * (3 * d.nodes.length) = s.coords.length := by
    rw [o2]
    show flagWord d.hasCoords * _ = _
    cases d.hasCoords <;> simp [flagWord]
  have u2 : d.cda.raw.iv * (3 * d.nodes.length) = s.velocity.length := by
    rw [o3]
    show flagWord d.hasVelocity * _ = _
    cases d.hasVelocity <;> simp [flagWord]
  have sec : ∀ {a b c : List Nat} {off n : Nat}, s.words = a ++ (b ++ c) → a.length = off → b.length = n →
      fileWords d.ws (packWords d.ws (stepsWords d.ws f)) (r * stateLen d.cda + off) n = b := by
    intro a b c off n h h1 h2
    subst h1 h2
    rw [sl _ _ (by rw [h]; simp), slice_mid h]
  have flags : ∀ b : Bool, b = true → flagWord b ≠ 0 := by
    intro b h
    rw [h]
    decide
  refine ⟨?_, ?_, ?_, ?_⟩
  · rw [t1]
    exact congrArg (fun l => Res.ok (plot, some l)) (sec (a := []) (b := [s.time]) (off := 0) (n := 1) rfl rfl rfl)
  · intro h
    rw [t2 (flags _ h)]
    exact congrArg (fun l => Res.ok (plot, some l)) (sec (a := s.time :: s.globals) (b := s.coords)
      (c := s.velocity ++ (s.acceleration ++ (s.solids.flatten ++ (s.beams.flatten ++ (s.shells.flatten ++
        (s.thicks.flatten ++ s.deleted)))))) (off := 1 + d.nglbv) (n := 3 * d.nodes.length)
      (by unfold Step.words; simp only [List.cons_append, List.append_assoc]) (by simp only [List.length_cons]; omega) (by rw [o2, if_pos h]))
  · intro h
    rw [t3 (flags _ h)]
    exact congrArg (fun l => Res.ok (plot, some l)) (sec (a := s.time :: (s.globals ++ s.coords)) (b := s.velocity)
      (c := s.acceleration ++ (s.solids.flatten ++ (s.beams.flatten ++ (s.shells.flatten ++ (s.thicks.flatten ++ s.deleted)))))
      (off := 1 + d.nglbv + d.cda.raw.iu * (3 * d.nodes.length)) (n := 3 * d.nodes.length)
      (by unfold Step.words; simp only [List.cons_append, List.append_assoc])
      (by simp only [List.length_cons, List.length_append]; omega) (by rw [o3, if_pos h]))
  · intro h
    rw [t4 (flags _ h)]
    exact congrArg (fun l => Res.ok (plot, some l)) (sec (a := s.time :: (s.globals ++ (s.coords ++ s.velocity))) (b := s.acceleration)
      (c := s.solids.flatten ++ (s.beams.flatten ++ (s.shells.flatten ++ (s.thicks.flatten ++ s.deleted))))
      (off := 1 + d.nglbv + (d.cda.raw.iu + d.cda.raw.iv) * (3 * d.nodes.length)) (n := 3 * d.nodes.length)
      (by unfold Step.words; simp only [List.cons_append, List.append_assoc])
      (by rw [Nat.add_mul]; simp only [List.length_cons, List.length_append]; omega) (by rw [o4, if_pos h]))

end Dyna.D3
