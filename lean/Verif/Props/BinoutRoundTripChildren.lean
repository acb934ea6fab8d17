import Verif.Props.BinoutRoundTrip
import Verif.Props.BinoutSession
/-!
# C107: the names that a binout which is written step by step shows
-/

namespace Dyna

/-- The names below a folder of a set of well formed files. -/
theorem children_good {files : List SrcFile} (h : GoodSet files) {kids : List Entry} (k2 : Represents (allOps 0 files) kids) {p : Bytes}
    (habs : p.head? = some SEP) (h0 : 0 ∉ p) (hb : ∀ c ∈ p, c < 256) (hd : IsDir files (components p)) :
    ∃ names, getChildren kids p = .ok (some names) ∧ names.Pairwise LexLt ∧ ∀ n, n ∈ names ↔ Present files (components p ++ [n]) := by
  obtain ⟨c1, -⟩ := getChildren_of_represents k2 (asciiOps_allOps files 0 h.ok) p habs h0 (components_bytes p hb)
  have hf := (isDir_iff files _).1 hd
  obtain ⟨names, n1, n2, n3⟩ := c1 hf (by
    rw [lastWrite_none]
    intro w hw he
    exact noClash_allOps files h w hw (he ▸ hf))
  refine ⟨names, n1, n2, fun n => ?_⟩
  rw [n3, present_write h]

/-- C107: below the root the names are those of the sections, below a section those of its folders, below a folder those of its variables;
each name once, in ascending order. -/
theorem c107_children {files : List OutBin} (good : GoodRun files) (hne : files ≠ []) :
    ∃ m, ∀ fuel, m ≤ fuel → ∀ pattern, ∃ b,
      binoutOpen fuel pattern (files.map fun f => (f.name, some f.write)) = .ok (some b) ∧
      (∃ names, getChildren b.kids [SEP] = .ok (some names) ∧ names.Pairwise LexLt ∧
        ∀ n, n ∈ names ↔ ∃ k ∈ foldersIn files, k.sec = n) ∧
      ∀ k ∈ foldersIn files,
        (∃ names, getChildren b.kids (SEP :: k.sec) = .ok (some names) ∧ names.Pairwise LexLt ∧
          ∀ n, n ∈ names ↔ ∃ k' ∈ foldersIn files, k'.sec = k.sec ∧ k'.name = n) ∧
        (∃ names, getChildren b.kids k.path = .ok (some names) ∧ names.Pairwise LexLt ∧ ∀ n, n ∈ names ↔ ∃ v ∈ k.vars, v.name = n) := by
  obtain ⟨gs, hv, hf⟩ := run_good good
  have hne' : files.map OutBin.src ≠ [] := by simpa using hne
  obtain ⟨m, h⟩ := open_good _ gs hne'
  have hfiles : (files.map OutBin.src).map (fun s => (s.name, some s.content)) = files.map fun f => (f.name, some f.write) := by
    rw [List.map_map]
    rfl
  rw [hfiles] at h
  refine ⟨m, fun fuel hfu pattern => ?_⟩
  obtain ⟨kids, o1, o2⟩ := h fuel hfu pattern
  refine ⟨_, o1, ?_, ?_⟩
  · have hc : components [SEP] = [] := by decide
    obtain ⟨names, n1, n2, n3⟩ := children_good gs o2 (p := [SEP]) rfl (by decide) (by decide) (by rw [hc]; exact .inl rfl)
    refine ⟨names, n1, n2, fun n => ?_⟩
    rw [n3, hc]
    constructor
    · rintro (hd | hp)
      · unfold IsDir at hd
        rw [hf] at hd
        rcases hd with hd | ⟨p, hp, hq⟩
        · cases hd
        · obtain ⟨k, hk, rfl⟩ := List.mem_map.mp hp
          simp at hq
          exact ⟨k, hk, hq.symm⟩
      · exact absurd (run_no_var good (by simp)) hp
    · rintro ⟨k, hk, rfl⟩
      exact .inl (run_dir1 good hk)
  · intro k hk
    obtain ⟨f, hff, hkf⟩ := List.mem_flatMap.mp hk
    have ok := good.folders f hff k hkf
    have s1 := ok.sec.1
    have p1 := (folderName_plain k).1
    refine ⟨?_, ?_⟩
    · obtain ⟨names, n1, n2, n3⟩ := children_good gs o2 (p := SEP :: k.sec) rfl
        (by
          simp only [List.mem_cons, not_or]
          exact ⟨by decide, s1.2.2.1⟩)
        (by
          intro c hc
          rcases List.mem_cons.mp hc with rfl | hc
          · decide
          · exact plain_bytes s1 c hc)
        (by rw [components_one s1]; exact run_dir1 good hk)
      refine ⟨names, n1, n2, fun n => ?_⟩
      rw [n3, components_one s1]
      show Present _ [k.sec, n] ↔ _
      rw [← run_dir2 good]
      constructor
      · rintro (hd | hp)
        · exact hd
        · exact absurd (run_no_var good (by simp)) hp
      · exact .inl
    · obtain ⟨names, n1, n2, n3⟩ := children_good gs o2 (p := k.path) rfl
        (cdOk_path ok []).1.2.1 (cdOk_path ok []).1.2.2.1
        (by
          show IsDir _ (components (SEP :: (k.sec ++ SEP :: k.name)))
          rw [components_two s1 p1]
          exact (run_dir2 good _ _).mpr ⟨k, hk, rfl, rfl⟩)
      refine ⟨names, n1, n2, fun n => ?_⟩
      have hc : components k.path = [k.sec, k.name] := components_two s1 p1
      rw [n3, hc]
      exact run_present3 good hk n

end Dyna
