import Verif.Binout
import Verif.DirectoryLemmas
import Mathlib.Data.List.Basic
/-!
# Lemmas about opening binout files
-/

namespace Dyna

/-! ## Specification: how a binout file is written -/

/-- Little endian encoding of a number in a field of a given width.
Part of the specification, models no code. -/
def leBytes : Nat → Nat → Bytes
  | 0, _ => []
  | n + 1, v => v % 256 :: leBytes n (v / 256)

/-- A record as a writer thinks of it. Part of the specification, models no code. -/
inductive WRec where
  | cd (path : Bytes)
  | data (ty : Nat) (name payload : Bytes)
  | other (cmd : Nat) (payload : Bytes)
deriving DecidableEq, Repr

/-- Part of the specification, models no code. -/
def WRec.cmd : WRec → Nat
  | .cd _ => 2
  | .data _ _ _ => 3
  | .other c _ => c

/-- Everything in front of the payload of the body. Part of the specification, models no code. -/
def encBody (w : Header) : WRec → Bytes
  | .cd p => p
  | .data ty name payload => leBytes w.typSize ty ++ (name.length :: (name ++ payload))
  | .other _ payload => payload

/-- A record: its total length, the command, the body. Part of the specification, models no code. -/
def encRec (w : Header) (r : WRec) : Bytes :=
  leBytes w.lenSize (w.lenSize + w.cmdSize + (encBody w r).length) ++
    (leBytes w.cmdSize r.cmd ++ encBody w r)

/-- Part of the specification, models no code. -/
def encHeader (w : Header) : Bytes := [8, w.lenSize, 8, w.cmdSize, w.typSize, 1, 0, 0]

/-- Part of the specification, models no code. -/
def encRecs (w : Header) : List WRec → Bytes
  | [] => []
  | r :: rs => encRec w r ++ encRecs w rs

/-- Part of the specification, models no code. -/
def encFile (w : Header) (rs : List WRec) : Bytes := encHeader w ++ encRecs w rs

/-- Field widths that the format allows. Part of the specification, models no code. -/
def Header.Ok (w : Header) : Prop :=
  0 < w.lenSize ∧ w.lenSize ≤ 8 ∧ 0 < w.cmdSize ∧ w.cmdSize ≤ 8 ∧ 0 < w.typSize ∧ w.typSize ≤ 8

/-- All numbers fit their fields. Part of the specification, models no code. -/
def WRec.Ok (w : Header) (r : WRec) : Prop :=
  (encRec w r).length < 256 ^ w.lenSize ∧ r.cmd < 256 ^ w.cmdSize ∧
  match r with
  | .cd p => p.length < 1024
  | .data ty name _ => ty < 256 ∧ name.length < 256 ∧ 0 ∉ name
  | .other c _ => c ≠ 2 ∧ c ≠ 3

/-- What the reader must report for a record that starts at `pos`.
Part of the specification, models no code. -/
def WRec.event (w : Header) (pos : Nat) : WRec → Rec
  | .cd p => .cd p
  | .data ty name payload =>
    .data ty name payload.length (pos + w.lenSize + w.cmdSize + w.typSize + 1 + name.length)
  | .other c _ => .other c

/-! ## Numbers -/

theorem leBytes_length (n v : Nat) : (leBytes n v).length = n := by
  induction n generalizing v with
  | zero => rfl
  | succ n ih => simp [leBytes, ih]

theorem leNat_leBytes (n v : Nat) (h : v < 256 ^ n) : leNat (leBytes n v) = v := by
  induction n generalizing v with
  | zero => simp at h; subst h; rfl
  | succ n ih =>
    simp only [leBytes, leNat]
    rw [ih (v / 256) (by rw [Nat.pow_succ] at h; exact Nat.div_lt_of_lt_mul (by rw [Nat.mul_comm]; exact h))]
    omega

theorem sub64_eq {a b : Nat} (h1 : b ≤ a) (h2 : a < u64) : sub64 a b = a - b := by
  unfold sub64
  have : b % u64 = b := Nat.mod_eq_of_lt (by omega)
  rw [this, Nat.mod_eq_of_lt h2]
  have : a + u64 - b = a - b + u64 := by omega
  rw [this, Nat.add_mod_right, Nat.mod_eq_of_lt (by omega)]

theorem fseekCur_fwd {p d : Nat} (h : p + d < u64 / 2) : fseekCur p d = some (p + d) := by
  unfold fseekCur
  rw [if_pos (by omega), if_pos h]

/-! ## Reading out of a concatenation -/

theorem slice_mid (a b c : Bytes) (n : Nat) (hn : b.length = n) :
    ((a ++ (b ++ c)).drop a.length).take n = b := by
  subst hn; simp

theorem freadObj_mid (a b c : Bytes) (p n : Nat) (hp : p = a.length) (hn : b.length = n)
    (h0 : 0 < n) : freadObj (a ++ (b ++ c)) p n = some b := by
  unfold freadObj
  rw [if_neg (by omega), if_pos (by subst hp; simp; omega)]
  subst hp; rw [slice_mid a b c n hn]

theorem freadBytes_mid (a b c : Bytes) (p n : Nat) (hp : p = a.length) (hn : b.length = n) :
    freadBytes (a ++ (b ++ c)) p n = some b := by
  unfold freadBytes
  split
  · rename_i h; rw [h] at hn; rw [List.eq_nil_of_length_eq_zero hn]
  · rw [if_pos (by subst hp; simp; omega)]
    subst hp; rw [slice_mid a b c n hn]

theorem pow256_le_u64 {n : Nat} (h : n ≤ 8) : 256 ^ n ≤ u64 := by
  have : (256 : Nat) ^ n ≤ 256 ^ 8 := Nat.pow_le_pow_right (by decide) h
  have h2 : (256 : Nat) ^ 8 = u64 := by decide
  omega

theorem encRec_length (w : Header) (r : WRec) :
    (encRec w r).length = w.lenSize + w.cmdSize + (encBody w r).length := by
  simp [encRec, leBytes_length]; omega

theorem finishData_fwd (ty : Nat) (name : Bytes) (size pos : Nat) (h : pos + size < u64 / 2) :
    finishData ty name size pos = .rcd (.data (ty % 256) name size pos) (pos + size) := by
  unfold finishData; rw [fseekCur_fwd h]

theorem finishOther_fwd (cmd p dl : Nat) (h : p + dl < u64 / 2) :
    finishOther cmd p dl = .rcd (.other cmd) (p + dl) := by
  unfold finishOther; rw [fseekCur_fwd h]

theorem readData_enc (w : Header) (hw : w.Ok) (ty : Nat) (name pl : Bytes) (t1 : ty < 256)
    (t3 : 0 ∉ name) (q suf f : Bytes)
    (hf : f = q ++ (encBody w (.data ty name pl) ++ suf)) (hlen : f.length < u64 / 2) :
    readData w f q.length (encBody w (.data ty name pl)).length =
      .rcd (.data ty name pl.length (q.length + w.typSize + 1 + name.length))
        (q.length + (encBody w (.data ty name pl)).length) := by
  obtain ⟨_, _, _, _, w5, w6⟩ := hw
  have hb : (encBody w (.data ty name pl)).length = w.typSize + 1 + name.length + pl.length := by
    simp [encBody, leBytes_length]; omega
  have g1 : f = q ++ (leBytes w.typSize ty ++ (name.length :: (name ++ pl) ++ suf)) := by
    rw [hf]; simp only [encBody, List.append_assoc, List.cons_append]
  have g2 : f = (q ++ leBytes w.typSize ty) ++ ([name.length] ++ (name ++ pl ++ suf)) := by
    rw [g1]; simp only [List.append_assoc, List.cons_append, List.nil_append]
  have g3 : f = (q ++ leBytes w.typSize ty ++ [name.length]) ++ (name ++ (pl ++ suf)) := by
    rw [g1]; simp only [List.append_assoc, List.cons_append, List.nil_append]
  have hfl : f.length = q.length + (encBody w (.data ty name pl)).length + suf.length := by
    rw [hf]; simp only [List.length_append]; omega
  have r1 : freadObj f q.length w.typSize = some (leBytes w.typSize ty) := by
    rw [g1]; exact freadObj_mid _ _ _ _ _ rfl (leBytes_length _ _) w5
  have r2 : freadObj f (q.length + w.typSize) 1 = some [name.length] := by
    rw [g2]; exact freadObj_mid _ _ _ _ _ (by simp [leBytes_length]) rfl (by decide)
  have r3 : freadBytes f (q.length + w.typSize + 1) name.length = some name := by
    rw [g3]; exact freadBytes_mid _ _ _ _ _ (by simp [leBytes_length]; omega) rfl
  have hsz : sub64 (sub64 (sub64 (encBody w (.data ty name pl)).length w.typSize) 1)
      name.length = pl.length := by
    rw [hb, sub64_eq (a := w.typSize + 1 + name.length + pl.length) (b := w.typSize)
      (by omega) (by omega)]
    rw [sub64_eq (b := 1) (by omega) (by omega), sub64_eq (b := name.length) (by omega) (by omega)]
    omega
  have hty : leNat (leBytes w.typSize ty) % 256 = ty := by
    rw [leNat_leBytes _ _ (by
      have : (256 : Nat) ^ 1 ≤ 256 ^ w.typSize := Nat.pow_le_pow_right (by decide) w5
      omega)]
    exact Nat.mod_eq_of_lt t1
  unfold readData
  rw [r1]; simp only
  rw [r2]
  have hn : leNat [name.length] = name.length := by simp [leNat]
  simp only
  rw [hn]
  rw [r3]; simp only
  rw [hsz, finishData_fwd _ _ _ _ (by omega), cstr_eq t3, hty]
  simp only [RecRead.rcd.injEq, true_and]; omega

/-- The reader recovers a record wherever it stands in a file. -/
theorem readRecord_enc (w : Header) (hw : w.Ok) (r : WRec) (hr : r.Ok w) (pre suf f : Bytes)
    (hf : f = pre ++ (encRec w r ++ suf)) (hlen : f.length < u64 / 2) :
    readRecord w f pre.length =
      .rcd (r.event w pre.length) (pre.length + (encRec w r).length) := by
  have hw' := hw
  obtain ⟨w1, w2, w3, w4, _, _⟩ := hw'
  obtain ⟨r1, r2, r3⟩ := hr
  have hL := encRec_length w r
  have hfl : f.length = pre.length + (encRec w r).length + suf.length := by
    rw [hf]; simp only [List.length_append]; omega
  obtain ⟨lb, hlb⟩ : ∃ lb, lb = leBytes w.lenSize (w.lenSize + w.cmdSize + (encBody w r).length) :=
    ⟨_, rfl⟩
  obtain ⟨cb, hcb⟩ : ∃ cb, cb = leBytes w.cmdSize r.cmd := ⟨_, rfl⟩
  have llb : lb.length = w.lenSize := by rw [hlb, leBytes_length]
  have lcb : cb.length = w.cmdSize := by rw [hcb, leBytes_length]
  have he : encRec w r = lb ++ (cb ++ encBody w r) := by rw [hlb, hcb]; rfl
  have e1 : f = pre ++ (lb ++ ((cb ++ encBody w r) ++ suf)) := by
    rw [hf, he]; simp only [List.append_assoc]
  have e2 : f = (pre ++ lb) ++ (cb ++ (encBody w r ++ suf)) := by
    rw [e1]; simp only [List.append_assoc]
  have e3 : f = (pre ++ lb ++ cb) ++ (encBody w r ++ suf) := by
    rw [e1]; simp only [List.append_assoc]
  have l3 : (pre ++ lb ++ cb).length = pre.length + w.lenSize + w.cmdSize := by
    rw [List.length_append, List.length_append, llb, lcb]
  have v1 : leNat lb = w.lenSize + w.cmdSize + (encBody w r).length := by
    rw [hlb]; exact leNat_leBytes _ _ (by rw [← hL]; exact r1)
  have v2 : leNat cb = r.cmd := by rw [hcb]; exact leNat_leBytes _ _ r2
  have a1 : freadObj f pre.length w.lenSize = some lb := by
    rw [e1]; exact freadObj_mid _ _ _ _ _ rfl llb w1
  have a2 : freadObj f (pre.length + w.lenSize) w.cmdSize = some cb := by
    rw [e2]; exact freadObj_mid _ _ _ _ _ (by rw [List.length_append, llb]) lcb w3
  have hdl : sub64 (sub64 (w.lenSize + w.cmdSize + (encBody w r).length) w.lenSize) w.cmdSize =
      (encBody w r).length := by
    rw [sub64_eq (a := w.lenSize + w.cmdSize + (encBody w r).length) (b := w.lenSize)
      (by omega) (by omega)]
    rw [sub64_eq (b := w.cmdSize) (by omega) (by omega)]; omega
  unfold readRecord
  rw [if_neg (by omega), a1]; simp only
  rw [a2]; simp only
  rw [v1, v2, hdl]
  cases r with
  | cd p =>
    have a3 : freadBytes f (pre.length + w.lenSize + w.cmdSize) p.length = some p := by
      rw [e3]; exact freadBytes_mid _ _ _ _ _ l3.symm rfl
    have a4 : readCd f (pre.length + w.lenSize + w.cmdSize) p.length =
        .rcd (.cd p) (pre.length + w.lenSize + w.cmdSize + p.length) := by
      unfold readCd
      rw [if_pos (show p.length < 1024 from r3), a3]
    have hb : (encBody w (.cd p)).length = p.length := rfl
    rw [hL, if_pos (show (WRec.cd p).cmd = 2 from rfl), hb, a4]
    simp only [WRec.event, RecRead.rcd.injEq, true_and]; omega
  | other c pl =>
    rw [hL]
    obtain ⟨s1, s2⟩ : (WRec.other c pl).cmd ≠ 2 ∧ (WRec.other c pl).cmd ≠ 3 := r3
    rw [if_neg s1, if_neg s2, finishOther_fwd _ _ _ (by omega)]
    simp only [WRec.event, WRec.cmd, RecRead.rcd.injEq, true_and]; omega
  | data ty name pl =>
    have := readData_enc w hw ty name pl r3.1 r3.2.2 (pre ++ lb ++ cb) suf f e3 hlen
    rw [l3] at this
    rw [hL]
    rw [if_neg (show (WRec.data ty name pl).cmd ≠ 2 from by simp [WRec.cmd]),
      if_pos (show (WRec.data ty name pl).cmd = 3 from rfl), this]
    simp only [WRec.event, RecRead.rcd.injEq, true_and]; omega

end Dyna
