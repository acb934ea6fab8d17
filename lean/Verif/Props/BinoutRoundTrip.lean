import Verif.BinoutWriter
import Verif.Props.BinoutRead
/-!
# C107: a binout that is written step by step is read back
-/

namespace Dyna

/-! ## Names of time steps -/

theorem stepNumber_sixDigits {n : Nat} (h : n < 1000000) : stepNumber (sixDigits n) = n := by
  unfold stepNumber sixDigits
  simp only [List.foldl_cons, List.foldl_nil]
  omega

theorem sixDigits_digits (n : Nat) : ∀ c ∈ sixDigits n, 48 ≤ c ∧ c ≤ 57 := by
  intro c hc
  unfold sixDigits at hc
  simp only [List.mem_cons, List.not_mem_nil, or_false] at hc
  rcases hc with rfl | rfl | rfl | rfl | rfl | rfl <;> omega

theorem isStepName_stepName (n : Nat) : IsStepName (stepName n) := ⟨sixDigits n, rfl, by simp [sixDigits], sixDigits_digits n⟩

theorem stepName_inj {m n : Nat} (hm : m < 1000000) (hn : n < 1000000) (h : stepName m = stepName n) : m = n := by
  have := congrArg stepNumber (List.cons.inj h).2
  rwa [stepNumber_sixDigits hm, stepNumber_sixDigits hn] at this

theorem stepName_lt {m n : Nat} (hm : m < 1000000) (hn : n < 1000000) (h : m < n) : LexLt (stepName m) (stepName n) := by
  rcases LexLt.total (stepName m) (stepName n) with h1 | h1 | h1
  · exact h1
  · have := stepName_inj hm hn h1
    omega
  · have := c19_name_order_is_time_order (sixDigits n) (sixDigits m) rfl (sixDigits_digits n) (sixDigits_digits m) h1
    rw [stepNumber_sixDigits hm, stepNumber_sixDigits hn] at this
    omega

theorem metadata_not_step (n : Nat) : bs "metadata" ≠ stepName n := by
  intro h
  have h1 : (bs "metadata").head? = (stepName n).head? := by rw [h]
  have h2 : (bs "metadata").head? = some 109 := by decide +kernel
  rw [h2] at h1
  exact absurd (Option.some.inj h1) (by decide)

theorem metadata_plain : PlainName (bs "metadata") ∧ (bs "metadata").length = 8 := by decide +kernel

theorem stepName_plain (n : Nat) : PlainName (stepName n) ∧ (stepName n).length = 7 := by
  have h : ∀ c ∈ stepName n, 48 ≤ c ∧ c ≤ 100 := by
    intro c hc
    rcases List.mem_cons.mp hc with rfl | hc
    · omega
    · have := sixDigits_digits n c hc
      omega
  refine ⟨⟨List.cons_ne_nil _ _, ?_, ?_, ?_⟩, rfl⟩
  · intro hs
    exact absurd (h _ hs).1 (by decide)
  · intro hs
    exact absurd (h _ hs).1 (by decide)
  · intro c hc
    have := (h c hc).2
    omega

theorem folderName_plain (k : OutFolder) : PlainName k.name ∧ k.name.length ≤ 8 := by
  unfold OutFolder.name
  split
  · exact ⟨metadata_plain.1, by rw [metadata_plain.2]; exact Nat.le_refl _⟩
  · exact ⟨(stepName_plain _).1, by rw [(stepName_plain _).2]; decide⟩

theorem folderName_inj {w w' : Header} {k k' : OutFolder} (h : k.Ok w) (h' : k'.Ok w') (hn : k.name = k'.name) : k.step = k'.step := by
  unfold OutFolder.name at hn
  cases hs : k.step with
  | none =>
    rw [hs] at hn
    cases hs' : k'.step with
    | none => rfl
    | some n =>
      rw [hs'] at hn
      exact absurd hn (metadata_not_step n)
  | some m =>
    rw [hs] at hn
    cases hs' : k'.step with
    | none =>
      rw [hs'] at hn
      exact absurd hn.symm (metadata_not_step m)
    | some n =>
      rw [hs'] at hn
      exact congrArg some (stepName_inj (h.step m hs) (h'.step n hs') hn)

/-! ## Contents of the files -/

theorem plain_bytes {n : Bytes} (h : PlainName n) : ∀ c ∈ n, c < 256 := fun c hc => Nat.lt_trans (h.2.2.2 c hc) (by decide)

theorem components_one {a : Bytes} (ha : PlainName a) : components (SEP :: a) = [a] := by
  rw [components_sep, components_noSep a ha.2.1 ha.1]

theorem components_two {a b : Bytes} (ha : PlainName a) (hb : PlainName b) : components (SEP :: (a ++ SEP :: b)) = [a, b] := by
  rw [components_sep, components_append_sep a b ha.2.1 ha.1, components_noSep b hb.2.1 hb.1]

theorem components_three {a b c : Bytes} (ha : PlainName a) (hb : PlainName b) (hc : PlainName c) :
    components (SEP :: (a ++ SEP :: (b ++ SEP :: c))) = [a, b, c] := by
  rw [components_sep, components_append_sep a _ ha.2.1 ha.1, components_append_sep b _ hb.2.1 hb.1, components_noSep c hc.2.1 hc.1]

theorem cdTarget_path {w : Header} {k : OutFolder} (h : k.Ok w) (cur : List Bytes) : cdTarget cur k.path = [k.sec, k.name] := by
  unfold cdTarget
  exact (if_pos rfl).trans (components_two h.sec.1 (folderName_plain k).1)

/-- Specification: a variable with its path. -/
def OutFolder.entries (k : OutFolder) : List (List Bytes × Nat × Bytes) := k.vars.map fun v => ([k.sec, k.name, v.name], v.ty, v.payload)

theorem varsOf_data (cur : List Bytes) : ∀ (l : List OutVar) (rest : List WRec),
    varsOf cur ((l.map fun v => WRec.data v.ty v.name v.payload) ++ rest) =
      (l.map fun v => (cur ++ [v.name], v.ty, v.payload)) ++ varsOf cur rest
  | [], _ => rfl
  | v :: l, rest => by
    rw [List.map_cons, List.cons_append, varsOf, varsOf_data cur l rest]
    rfl

theorem foldersOf_data (cur : List Bytes) : ∀ (l : List OutVar) (rest : List WRec),
    foldersOf cur ((l.map fun v => WRec.data v.ty v.name v.payload) ++ rest) = foldersOf cur rest
  | [], _ => rfl
  | v :: l, rest => by
    rw [List.map_cons, List.cons_append, foldersOf, foldersOf_data cur l rest]

theorem cdsOk_data (cur : List Bytes) (n : Nat) : ∀ (l : List OutVar) (rest : List WRec),
    cdsOk cur n ((l.map fun v => WRec.data v.ty v.name v.payload) ++ rest) ↔ cdsOk cur n rest
  | [], _ => Iff.rfl
  | v :: l, rest => by
    rw [List.map_cons, List.cons_append, cdsOk, cdsOk_data cur n l rest]

theorem varsOf_folders {w : Header} : ∀ (l : List OutFolder) (_ : ∀ k ∈ l, k.Ok w) (cur : List Bytes),
    varsOf cur (l.flatMap OutFolder.records) = l.flatMap OutFolder.entries
  | [], _, _ => rfl
  | k :: l, h, cur => by
    rw [List.flatMap_cons, List.flatMap_cons, OutFolder.records, List.cons_append, varsOf, cdTarget_path (h k (by simp)), varsOf_data,
      varsOf_folders l (fun x hx => h x (by simp [hx]))]
    rfl

theorem foldersOf_folders {w : Header} : ∀ (l : List OutFolder) (_ : ∀ k ∈ l, k.Ok w) (cur : List Bytes),
    foldersOf cur (l.flatMap OutFolder.records) = l.map fun k => [k.sec, k.name]
  | [], _, _ => rfl
  | k :: l, h, cur => by
    rw [List.flatMap_cons, List.map_cons, OutFolder.records, List.cons_append, foldersOf, cdTarget_path (h k (by simp)), foldersOf_data,
      foldersOf_folders l (fun x hx => h x (by simp [hx]))]

theorem cdOk_path {w : Header} {k : OutFolder} (h : k.Ok w) (cur : List Bytes) : cdOk cur k.path ∧ k.path.length < 1024 := by
  obtain ⟨p1, p2⟩ := folderName_plain k
  obtain ⟨s1, s2⟩ := h.sec
  refine ⟨⟨List.cons_ne_nil _ _, ?_, ?_, ?_, ?_, ?_⟩, ?_⟩
  · unfold OutFolder.path
    simp only [List.mem_cons, List.mem_append, not_or]
    exact ⟨by decide, s1.2.2.1, by decide, p1.2.2.1⟩
  · intro c hc
    unfold OutFolder.path at hc
    simp only [List.mem_cons, List.mem_append] at hc
    rcases hc with rfl | hc | rfl | hc
    · decide
    · exact plain_bytes s1 c hc
    · decide
    · exact plain_bytes p1 c hc
  · intro _
    unfold OutFolder.path
    cases hs : k.sec with
    | nil => exact absurd hs s1.1
    | cons c cs =>
      show some c ≠ some SEP
      intro hc
      have := Option.some.inj hc
      refine s1.2.1 ?_
      rw [hs, this]
      simp
  · intro hh
    exact absurd rfl hh
  · rw [cdTarget_path h]
    exact List.cons_ne_nil _ _
  · unfold OutFolder.path
    simp only [List.length_cons, List.length_append]
    omega

theorem cdsOk_folders {w : Header} : ∀ (l : List OutFolder) (_ : ∀ k ∈ l, k.Ok w) (cur : List Bytes) (n : Nat),
    cdsOk cur n (l.flatMap OutFolder.records)
  | [], _, _, _ => trivial
  | k :: l, h, cur, n => by
    rw [List.flatMap_cons, OutFolder.records, List.cons_append, cdsOk, cdsOk_data]
    obtain ⟨h1, h2⟩ := cdOk_path (h k (by simp)) cur
    refine ⟨h1, ?_, cdsOk_folders l (fun x hx => h x (by simp [hx])) _ _⟩
    unfold cdRoom
    exact (if_pos (c := k.path.head? = some SEP) rfl).symm ▸ h2

theorem startsCd_folders (l : List OutFolder) : startsCd (l.flatMap OutFolder.records) := by
  cases l <;> trivial

/-- The files of a run are well formed. -/
theorem run_good {files : List OutBin} (good : GoodRun files) : GoodSet (files.map OutBin.src) ∧
    allVars (files.map OutBin.src) = (foldersIn files).flatMap OutFolder.entries ∧
    allFolders (files.map OutBin.src) = (foldersIn files).map fun k => [k.sec, k.name] := by
  have hv : allVars (files.map OutBin.src) = (foldersIn files).flatMap OutFolder.entries := by
    unfold allVars foldersIn
    rw [List.flatMap_map, List.flatMap_assoc]
    have := fun f hf => varsOf_folders f.folders (good.folders f hf) []
    generalize files = fs at this
    induction fs with
    | nil => rfl
    | cons f fs ih =>
      rw [List.flatMap_cons, List.flatMap_cons, ih (fun x hx => this x (by simp [hx]))]
      exact congrArg (· ++ _) (this f (by simp))
  have hf : allFolders (files.map OutBin.src) = (foldersIn files).map fun k => [k.sec, k.name] := by
    unfold allFolders foldersIn
    rw [List.flatMap_map, List.map_flatMap]
    have := fun f hf => foldersOf_folders f.folders (good.folders f hf) []
    generalize files = fs at this
    induction fs with
    | nil => rfl
    | cons f fs ih =>
      rw [List.flatMap_cons, List.flatMap_cons, ih (fun x hx => this x (by simp [hx]))]
      exact congrArg (· ++ _) (this f (by simp))
  refine ⟨⟨?_, ?_, ?_⟩, hv, hf⟩
  · intro s hs
    obtain ⟨f, hf, rfl⟩ := List.mem_map.mp hs
    have hw := good.widths f hf
    have hk := good.folders f hf
    have small : ∀ c, c < 256 → c < 256 ^ f.w.cmdSize := fun c hc =>
      Nat.lt_of_lt_of_le hc (by
        have := Nat.pow_le_pow_right (n := 256) (by decide) hw.2.2.1
        simpa using this)
    refine ⟨hw, ?_, good.size f hf, cdsOk_folders _ hk _ _, startsCd_folders _, ?_⟩
    · intro r hr
      obtain ⟨k, hkm, hr⟩ := List.mem_flatMap.mp hr
      refine ⟨(hk k hkm).fits r hr, ?_, ?_⟩
      · refine small _ ?_
        rcases List.mem_cons.mp hr with rfl | hr
        · show 2 < 256
          decide
        · obtain ⟨v, -, rfl⟩ := List.mem_map.mp hr
          show 3 < 256
          decide
      · rcases List.mem_cons.mp hr with rfl | hr
        · exact (cdOk_path (hk k hkm) []).2
        · obtain ⟨v, hv, rfl⟩ := List.mem_map.mp hr
          exact ⟨(hk k hkm).types v hv, ((hk k hkm).names v hv).2, ((hk k hkm).names v hv).1.2.2.1⟩
    · intro r hr
      obtain ⟨k, hkm, hr⟩ := List.mem_flatMap.mp hr
      rcases List.mem_cons.mp hr with rfl | hr
      · intro c hc
        unfold OutFolder.path at hc
        simp only [List.mem_cons, List.mem_append] at hc
        rcases hc with rfl | hc | rfl | hc
        · decide
        · exact (hk k hkm).sec.1.2.2.2 c hc
        · decide
        · exact (folderName_plain k).1.2.2.2 c hc
      · obtain ⟨v, hv, rfl⟩ := List.mem_map.mp hr
        exact ((hk k hkm).names v hv).1.2.2.2
  · rw [List.length_map]
    exact good.few
  · rw [hv, hf]
    intro v hv p hp hpre
    obtain ⟨k, -, hv⟩ := List.mem_flatMap.mp hv
    obtain ⟨x, -, rfl⟩ := List.mem_map.mp hv
    obtain ⟨k', -, rfl⟩ := List.mem_map.mp hp
    exact absurd hpre.length_le (by simp)

/-! ## Lookups -/

theorem lastVar_of_unique {vars : List (List Bytes × Nat × Bytes)} {q : List Bytes} {x : Nat × Bytes} (hm : (q, x) ∈ vars)
    (hu : ∀ v ∈ vars, v.1 = q → v = (q, x)) : lastVar vars q = some x := by
  unfold lastVar
  cases hf : vars.reverse.find? (fun v => v.1 = q) with
  | none =>
    have := List.find?_eq_none.mp hf (q, x) (by simpa using hm)
    simp at this
  | some v =>
    have h1 := List.find?_some hf
    have h2 := List.mem_of_find?_eq_some hf
    rw [hu v (by simpa using h2) (by simpa using h1)]
    rfl

theorem lastVar_none {vars : List (List Bytes × Nat × Bytes)} {q : List Bytes} (h : ∀ v ∈ vars, v.1 ≠ q) : lastVar vars q = none := by
  unfold lastVar
  rw [List.find?_eq_none.mpr]
  · rfl
  · intro v hv
    simpa using h v (by simpa using hv)

theorem lastVar_mem {vars : List (List Bytes × Nat × Bytes)} {q : List Bytes} (h : lastVar vars q ≠ none) : ∃ v ∈ vars, v.1 = q := by
  by_cases he : ∃ v ∈ vars, v.1 = q
  · exact he
  · exact absurd (lastVar_none fun v hv hq => he ⟨v, hv, hq⟩) h

theorem run_var {files : List OutBin} (good : GoodRun files) {k : OutFolder} (hk : k ∈ foldersIn files) {v : OutVar} (hv : v ∈ k.vars) :
    lastVar (allVars (files.map OutBin.src)) [k.sec, k.name, v.name] = some (v.ty, v.payload) := by
  rw [(run_good good).2.1]
  obtain ⟨f, hf, hkf⟩ := List.mem_flatMap.mp hk
  refine lastVar_of_unique (List.mem_flatMap.mpr ⟨k, hk, List.mem_map.mpr ⟨v, hv, rfl⟩⟩) ?_
  intro u hu hq
  obtain ⟨k', hk', hu⟩ := List.mem_flatMap.mp hu
  obtain ⟨v', hv', rfl⟩ := List.mem_map.mp hu
  obtain ⟨f', hf', hkf'⟩ := List.mem_flatMap.mp hk'
  have hq : [k'.sec, k'.name, v'.name] = [k.sec, k.name, v.name] := hq
  simp only [List.cons.injEq, and_true] at hq
  have ok := good.folders f hf k hkf
  have ok' := good.folders f' hf' k' hkf'
  have he : k' = k := good.once k' hk' k hk hq.1 (folderName_inj ok' ok hq.2.1)
  subst he
  rw [ok.once v' hv' v hv hq.2.2]

theorem run_no_var {files : List OutBin} (good : GoodRun files) {q : List Bytes} (h : q.length ≠ 3) :
    lastVar (allVars (files.map OutBin.src)) q = none := by
  rw [(run_good good).2.1]
  refine lastVar_none ?_
  rintro u hu rfl
  obtain ⟨k', -, hu⟩ := List.mem_flatMap.mp hu
  obtain ⟨v', -, rfl⟩ := List.mem_map.mp hu
  exact h rfl

theorem run_dir2 {files : List OutBin} (good : GoodRun files) (a n : Bytes) :
    IsDir (files.map OutBin.src) [a, n] ↔ ∃ k ∈ foldersIn files, k.sec = a ∧ k.name = n := by
  unfold IsDir
  rw [(run_good good).2.2]
  constructor
  · rintro (h | ⟨p, hp, hq⟩)
    · cases h
    · obtain ⟨k, hk, rfl⟩ := List.mem_map.mp hp
      simp at hq
      exact ⟨k, hk, hq.1.symm, hq.2.symm⟩
  · rintro ⟨k, hk, rfl, rfl⟩
    exact .inr ⟨_, List.mem_map.mpr ⟨k, hk, rfl⟩, List.prefix_refl _⟩

theorem run_dir1 {files : List OutBin} (good : GoodRun files) {k : OutFolder} (hk : k ∈ foldersIn files) :
    IsDir (files.map OutBin.src) [k.sec] := by
  unfold IsDir
  rw [(run_good good).2.2]
  exact .inr ⟨_, List.mem_map.mpr ⟨k, hk, rfl⟩, by simp⟩

theorem run_dir3 {files : List OutBin} (good : GoodRun files) (a b c : Bytes) : ¬ IsDir (files.map OutBin.src) [a, b, c] := by
  unfold IsDir
  rw [(run_good good).2.2]
  rintro (h | ⟨p, hp, hq⟩)
  · cases h
  · obtain ⟨k, hk, rfl⟩ := List.mem_map.mp hp
    simp at hq

theorem run_present3 {files : List OutBin} (good : GoodRun files) {k : OutFolder} (hk : k ∈ foldersIn files) (n : Bytes) :
    Present (files.map OutBin.src) [k.sec, k.name, n] ↔ ∃ v ∈ k.vars, v.name = n := by
  constructor
  · rintro (h | h)
    · exact absurd h (run_dir3 good _ _ _)
    · obtain ⟨u, hu, hq⟩ := lastVar_mem h
      rw [(run_good good).2.1] at hu
      obtain ⟨k', hk', hu⟩ := List.mem_flatMap.mp hu
      obtain ⟨v', hv', rfl⟩ := List.mem_map.mp hu
      have hq : [k'.sec, k'.name, v'.name] = [k.sec, k.name, n] := hq
      simp only [List.cons.injEq, and_true] at hq
      obtain ⟨f, hf, hkf⟩ := List.mem_flatMap.mp hk
      obtain ⟨f', hf', hkf'⟩ := List.mem_flatMap.mp hk'
      have he : k' = k := good.once k' hk' k hk hq.1 (folderName_inj (good.folders f' hf' k' hkf') (good.folders f hf k hkf) hq.2.1)
      subst he
      exact ⟨v', hv', hq.2.2⟩
  · rintro ⟨v, hv, rfl⟩
    right
    rw [run_var good hk hv]
    exact Option.some_ne_none _

/-- Specification: the numbers of the time steps of a section, in ascending order. -/
def StepNumbers (files : List OutBin) (sec : Bytes) (ns : List Nat) : Prop :=
  ns.Pairwise (· < ·) ∧ ∀ n, n ∈ ns ↔ ∃ k ∈ foldersIn files, k.sec = sec ∧ k.step = some n

theorem run_steps {files : List OutBin} (good : GoodRun files) {sec : Bytes} {ns : List Nat} (h : StepNumbers files sec ns) :
    StepsOf (files.map OutBin.src) [sec] (ns.map stepName) ∧ ∀ n ∈ ns, n < 1000000 := by
  have hb : ∀ n ∈ ns, n < 1000000 := by
    intro n hn
    obtain ⟨k, hk, -, hs⟩ := (h.2 n).mp hn
    obtain ⟨f, hf, hkf⟩ := List.mem_flatMap.mp hk
    exact (good.folders f hf k hkf).step n hs
  refine ⟨⟨?_, ?_⟩, hb⟩
  · rw [List.pairwise_map]
    exact h.1.imp_of_mem fun ha hc hlt => stepName_lt (hb _ ha) (hb _ hc) hlt
  · intro m
    show _ ↔ IsStepName m ∧ IsDir _ [sec, m]
    rw [run_dir2 good, List.mem_map]
    constructor
    · rintro ⟨n, hn, rfl⟩
      obtain ⟨k, hk, hsec, hs⟩ := (h.2 n).mp hn
      refine ⟨isStepName_stepName n, k, hk, hsec, ?_⟩
      unfold OutFolder.name
      rw [hs]
    · rintro ⟨hm, k, hk, hsec, hn⟩
      cases hs : k.step with
      | none =>
        unfold OutFolder.name at hn
        rw [hs] at hn
        obtain ⟨ds, hds, -⟩ := hm
        have h1 : (bs "metadata").head? = (100 :: ds).head? := by rw [← hds, ← hn]
        have h2 : (bs "metadata").head? = some 109 := by decide +kernel
        rw [h2] at h1
        exact absurd (Option.some.inj h1) (by decide)
      | some n =>
        refine ⟨n, (h.2 n).mpr ⟨k, hk, hsec, hs⟩, ?_⟩
        rw [← hn]
        unfold OutFolder.name
        rw [hs]

theorem run_step_head {files : List OutBin} (good : GoodRun files) {sec m : Bytes} (h : IsDir (files.map OutBin.src) [sec, m])
    (hh : m.head? = some 100) : IsStepName m := by
  obtain ⟨k, -, -, hn⟩ := (run_dir2 good sec m).mp h
  cases hs : k.step with
  | none =>
    unfold OutFolder.name at hn
    rw [hs] at hn
    have h2 : (bs "metadata").head? = some 109 := by decide +kernel
    rw [← hn, h2] at hh
    exact absurd (Option.some.inj hh) (by decide)
  | some n =>
    unfold OutFolder.name at hn
    rw [hs] at hn
    rw [← hn]
    exact isStepName_stepName n

/-- C107: the files of a run are opened without an error; every variable with values is read back with its type; the number of time steps
of a section is the number of steps that are written; a variable that every step has with the same size is read over time as the values of
all steps in the order of their numbers, in whatever order and in whichever files they are written. -/
theorem c107_round_trip {files : List OutBin} (good : GoodRun files) (hne : files ≠ []) :
    ∃ m, ∀ fuel, m ≤ fuel → ∀ pattern, ∃ b,
      binoutOpen fuel pattern (files.map fun f => (f.name, some f.write)) = .ok (some b) ∧ b.error = none ∧
      (∀ k ∈ foldersIn files, ∀ v ∈ k.vars, ∀ w, TypeWidth v.ty w → v.payload ≠ [] →
        binoutRead b (SEP :: (k.sec ++ SEP :: (k.name ++ SEP :: v.name))) v.ty = .ok (v.payload, v.payload.length / w)) ∧
      ∀ (sec : Bytes) (ns : List Nat), StepNumbers files sec ns → (∃ k ∈ foldersIn files, k.sec = sec) →
        numTimesteps b.kids (SEP :: sec) = .ok (some ns.length) ∧
        ∀ (name : Bytes) (ty w size : Nat) (payload : Nat → Bytes), TypeWidth ty w → ns ≠ [] → size / w ≠ 0 →
          (∀ k ∈ foldersIn files, k.sec = sec → k.name ≠ name) →
          (∀ k ∈ foldersIn files, k.sec = sec → ∀ n, k.step = some n →
            ⟨ty, name, payload n⟩ ∈ k.vars ∧ (payload n).length = size) →
          (∀ k ∈ foldersIn files, ∀ k' ∈ foldersIn files, k.sec = sec → k'.sec = sec → k.step ≠ none → k'.step ≠ none →
            ∀ x ∈ k.vars, ∃ x' ∈ k'.vars, x'.name = x.name) →
          readTimed b (SEP :: (sec ++ SEP :: name)) ty = .ok ((ns.map payload).flatten.map some, size / w, ns.length) := by
  obtain ⟨gs, hv, hf⟩ := run_good good
  have hne' : files.map OutBin.src ≠ [] := by simpa using hne
  obtain ⟨m1, h1⟩ := c17_file_association_partial _ gs hne'
  obtain ⟨m2, h2⟩ := c18_read _ gs hne'
  obtain ⟨m3, h3⟩ := c20_num_timesteps_partial _ gs hne'
  obtain ⟨m4, h4⟩ := c19_read_timed_partial _ gs hne'
  have hfiles : (files.map OutBin.src).map (fun s => (s.name, some s.content)) = files.map fun f => (f.name, some f.write) := by
    rw [List.map_map]
    rfl
  rw [hfiles] at h1 h2 h3 h4
  refine ⟨m1 + m2 + m3 + m4, fun fuel hfu pattern => ?_⟩
  obtain ⟨kids, o1, -⟩ := h1 fuel (by omega) pattern
  obtain ⟨b2, o2, r2⟩ := h2 fuel (by omega) pattern
  obtain ⟨b3, o3, r3⟩ := h3 fuel (by omega) pattern
  obtain ⟨b4, o4, r4⟩ := h4 fuel (by omega) pattern
  have e3 : b3 = b2 := by rw [o2] at o3; cases o3; rfl
  have e4 : b4 = b2 := by rw [o2] at o4; cases o4; rfl
  have e1 : b2.error = none := by rw [o2] at o1; cases o1; rfl
  subst e3 e4
  refine ⟨b4, o2, e1, ?_, ?_⟩
  · intro k hk v hvk w hw hp
    obtain ⟨f, hff, hkf⟩ := List.mem_flatMap.mp hk
    have ok := good.folders f hff k hkf
    obtain ⟨n1, -⟩ := ok.names v hvk
    have p1 := (folderName_plain k).1
    have s1 := ok.sec.1
    have := r2 (SEP :: (k.sec ++ SEP :: (k.name ++ SEP :: v.name))) v.ty w hw rfl
      (by
        simp only [List.mem_cons, List.mem_append, not_or]
        exact ⟨by decide, s1.2.2.1, by decide, p1.2.2.1, by decide, n1.2.2.1⟩)
      (by
        intro c hc
        simp only [List.mem_cons, List.mem_append] at hc
        rcases hc with rfl | hc | rfl | hc | rfl | hc
        · decide
        · exact plain_bytes s1 c hc
        · decide
        · exact plain_bytes p1 c hc
        · decide
        · exact plain_bytes n1 c hc)
    rw [this, components_three s1 p1 n1, run_var good hk hvk]
    simp [hp]
  · rintro sec ns hns ⟨k0, hk0, rfl⟩
    obtain ⟨f0, hf0, hkf0⟩ := List.mem_flatMap.mp hk0
    have s1 := (good.folders f0 hf0 k0 hkf0).sec.1
    obtain ⟨st, hb⟩ := run_steps good hns
    refine ⟨?_, ?_⟩
    · have := r3 (SEP :: k0.sec) (ns.map stepName) rfl
        (by
          simp only [List.mem_cons, not_or]
          exact ⟨by decide, s1.2.2.1⟩)
        (by
          intro c hc
          rcases List.mem_cons.mp hc with rfl | hc
          · decide
          · exact plain_bytes s1 c hc)
      rw [components_one s1] at this
      rw [this (run_dir1 good hk0) (fun n => run_no_var good (by simp)) (fun n hd hh => run_step_head good hd hh) st, List.length_map]
    · intro name ty w size payload hw hnn hsz hnf hvar hsame
      obtain ⟨n0, hn0⟩ := List.exists_mem_of_ne_nil ns hnn
      obtain ⟨k1, hk1, hs1, ht1⟩ := (hns.2 n0).mp hn0
      obtain ⟨f1, hf1, hkf1⟩ := List.mem_flatMap.mp hk1
      have n1 := ((good.folders f1 hf1 k1 hkf1).names _ (hvar k1 hk1 hs1 n0 ht1).1).1
      have n1 : PlainName name := n1
      have hstep : ∀ d ∈ ns.map stepName, ∃ n k, n ∈ ns ∧ d = stepName n ∧ k ∈ foldersIn files ∧ k.sec = k0.sec ∧ k.step = some n ∧
          k.name = d := by
        intro d hd
        obtain ⟨n, hn, rfl⟩ := List.mem_map.mp hd
        obtain ⟨k, hk, hsec, hs⟩ := (hns.2 n).mp hn
        refine ⟨n, k, hn, rfl, hk, hsec, hs, ?_⟩
        unfold OutFolder.name
        rw [hs]
      have hpay : ∀ n ∈ ns, payload (stepNumber (stepName n).tail) = payload n := by
        intro n hn
        show payload (stepNumber (sixDigits n)) = _
        rw [stepNumber_sixDigits (hb n hn)]
      have := r4 (SEP :: (k0.sec ++ SEP :: name)) [k0.sec] name (ns.map stepName) (fun d => payload (stepNumber d.tail)) size ty w hw rfl
        (by
          simp only [List.mem_cons, List.mem_append, not_or]
          exact ⟨by decide, s1.2.2.1, by decide, n1.2.2.1⟩)
        (by
          intro c hc
          simp only [List.mem_cons, List.mem_append] at hc
          rcases hc with rfl | hc | rfl | hc
          · decide
          · exact plain_bytes s1 c hc
          · decide
          · exact plain_bytes n1 c hc)
        (components_two s1 n1) (List.cons_ne_nil _ _) (run_dir1 good hk0) st (by simpa using hnn)
        (by
          intro n hp hh
          refine ⟨?_, run_no_var good (by simp)⟩
          rcases hp with hp | hp
          · exact run_step_head good hp hh
          · exact absurd (run_no_var good (by simp)) hp)
        (by
          rintro (hp | hp)
          · obtain ⟨k, hk, hsec, hn⟩ := (run_dir2 good k0.sec name).mp hp
            exact hnf k hk hsec hn
          · exact hp (run_no_var good (by simp)))
        (by
          intro d hd d' hd' n
          obtain ⟨i, k, hi, hdi, hk, hsec, hs, hkn⟩ := hstep d hd
          obtain ⟨i', k', hi', hdi', hk', hsec', hs', hkn'⟩ := hstep d' hd'
          show Present _ [k0.sec, d, n] ↔ Present _ [k0.sec, d', n]
          rw [← hkn, ← hkn']
          have a1 := run_present3 good hk n
          have a2 := run_present3 good hk' n
          rw [hsec] at a1
          rw [hsec'] at a2
          rw [a1, a2]
          have x1 : k.step ≠ none := by rw [hs]; exact Option.some_ne_none _
          have x2 : k'.step ≠ none := by rw [hs']; exact Option.some_ne_none _
          constructor
          · rintro ⟨x, hx, rfl⟩
            exact hsame k hk k' hk' hsec hsec' x1 x2 x hx
          · rintro ⟨x, hx, rfl⟩
            exact hsame k' hk' k hk hsec' hsec x2 x1 x hx)
        (by
          intro d hd
          obtain ⟨i, k, hi, hdi, hk, hsec, hs, hkn⟩ := hstep d hd
          refine ⟨ty, ?_⟩
          have a := run_var good hk (hvar k hk hsec i hs).1
          rw [hsec, hkn] at a
          show lastVar _ [k0.sec, d, name] = some (ty, payload (stepNumber d.tail))
          rw [hdi, hpay i hi, ← hdi]
          exact a)
        (by
          intro d hd
          obtain ⟨i, k, hi, hdi, hk, hsec, hs, hkn⟩ := hstep d hd
          show (payload (stepNumber d.tail)).length = size
          rw [hdi, hpay i hi]
          exact (hvar k hk hsec i hs).2)
        hsz
      rw [this, List.length_map, List.map_map]
      have hmap : ns.map ((fun d => payload (stepNumber d.tail)) ∘ stepName) = ns.map payload :=
        List.map_congr_left fun n hn => hpay n hn
      rw [hmap]

/-! ## A sample -/

/-- Specification: two sections, time steps that are not written in the order of their numbers, two files. -/
def sampleRun : List OutBin :=
  [⟨bs "binout0000", ⟨8, 8, 1⟩, [⟨bs "nodout", none, [⟨4, bs "ids", [7, 0, 0, 0, 0, 0, 0, 0]⟩]⟩,
      ⟨bs "nodout", some 2, [⟨9, bs "x", [5, 6, 7, 8]⟩, ⟨9, bs "time", [2, 2, 2, 2]⟩]⟩, ⟨bs "glstat", some 1, [⟨1, bs "e", [3]⟩]⟩]⟩,
    ⟨bs "binout0001", ⟨4, 1, 2⟩, [⟨bs "nodout", some 1, [⟨9, bs "time", [1, 1, 1, 1]⟩, ⟨9, bs "x", [1, 2, 3, 4]⟩]⟩]⟩]

theorem sampleRun_good : GoodRun sampleRun := by
  refine ⟨?_, ?_, ?_, by decide, by decide +kernel⟩
  · intro f hf
    unfold sampleRun at hf
    simp only [List.mem_cons, List.not_mem_nil, or_false] at hf
    rcases hf with rfl | rfl <;> (unfold Header.Ok; decide +kernel)
  · intro f hf k hk
    unfold sampleRun at hf
    simp only [List.mem_cons, List.not_mem_nil, or_false] at hf
    rcases hf with rfl | rfl
    · simp only [List.mem_cons, List.not_mem_nil, or_false] at hk
      rcases hk with rfl | rfl | rfl <;>
        exact ⟨by decide +kernel, by intro n hn; cases hn <;> decide, by decide +kernel, by decide +kernel, by decide +kernel,
          by decide +kernel⟩
    · simp only [List.mem_cons, List.not_mem_nil, or_false] at hk
      subst hk
      exact ⟨by decide +kernel, by intro n hn; cases hn; decide, by decide +kernel, by decide +kernel, by decide +kernel,
        by decide +kernel⟩
  · decide +kernel

/-- The sample meets the hypotheses, and its values over time are those of step 1, then those of step 2. -/
theorem c107_sample : GoodRun sampleRun ∧ StepNumbers sampleRun (bs "nodout") [1, 2] ∧
    ∃ m, ∀ fuel, m ≤ fuel → ∀ pattern, ∃ b,
      binoutOpen fuel pattern (sampleRun.map fun f => (f.name, some f.write)) = .ok (some b) ∧
      binoutRead b (bs "/nodout/metadata/ids") 4 = .ok ([7, 0, 0, 0, 0, 0, 0, 0], 1) ∧
      numTimesteps b.kids (bs "/nodout") = .ok (some 2) ∧
      readTimed b (bs "/nodout/x") 9 = .ok ([1, 2, 3, 4, 5, 6, 7, 8].map some, 1, 2) := by
  have hs : StepNumbers sampleRun (bs "nodout") [1, 2] := by
    refine ⟨by decide, ?_⟩
    intro n
    constructor
    · intro hn
      simp only [List.mem_cons, List.not_mem_nil, or_false] at hn
      rcases hn with rfl | rfl <;> decide +kernel
    · rintro ⟨k, hk, hsec, hn⟩
      have : ∀ k ∈ foldersIn sampleRun, k.sec = bs "nodout" → k.step = none ∨ k.step = some 1 ∨ k.step = some 2 := by decide +kernel
      rcases this k hk hsec with h | h | h <;> rw [h] at hn <;> cases hn <;> simp
  refine ⟨sampleRun_good, hs, ?_⟩
  obtain ⟨m, hm⟩ := c107_round_trip sampleRun_good (List.cons_ne_nil _ _)
  refine ⟨m, fun fuel hf pattern => ?_⟩
  obtain ⟨b, h1, -, h2, h3⟩ := hm fuel hf pattern
  refine ⟨b, h1, ?_, ?_, ?_⟩
  · have := h2 ⟨bs "nodout", none, [⟨4, bs "ids", [7, 0, 0, 0, 0, 0, 0, 0]⟩]⟩ (by decide +kernel)
      ⟨4, bs "ids", [7, 0, 0, 0, 0, 0, 0, 0]⟩ (List.mem_singleton.mpr rfl) 8 .int64 (by decide)
    exact this
  · exact (h3 (bs "nodout") [1, 2] hs (by decide +kernel)).1
  · have := (h3 (bs "nodout") [1, 2] hs (by decide +kernel)).2 (bs "x") 9 4 4 (fun n => if n = 1 then [1, 2, 3, 4] else [5, 6, 7, 8])
      .float32 (by decide) (by decide) (by decide +kernel) ?_ (by decide +kernel)
    · exact this
    · have g : ∀ k ∈ foldersIn sampleRun, k.sec = bs "nodout" → (k.step = none) ∨
          (k.step = some 1 ∧ ⟨9, bs "x", [1, 2, 3, 4]⟩ ∈ k.vars) ∨ (k.step = some 2 ∧ ⟨9, bs "x", [5, 6, 7, 8]⟩ ∈ k.vars) := by
        decide +kernel
      intro k hk hsec n hn
      rcases g k hk hsec with h | ⟨h, hx⟩ | ⟨h, hx⟩
      · rw [h] at hn
        cases hn
      · rw [h] at hn
        cases hn
        exact ⟨hx, rfl⟩
      · rw [h] at hn
        cases hn
        exact ⟨hx, rfl⟩

end Dyna
