import Verif.Props.KeyMeaning
/-!
# Property C68, completeness: every file that is parsed has a meaning

The relation `Means` has no gaps: if the names in the files of the file system are written as
specified (`NamesOk`) then every call that returns does what a meaning says.
-/

namespace Dyna.Key

/-- Part of the specification: the cards of an INCLUDE keyword are names of files or directories, or begin with one. -/
def NamesOk (b : Block) : Prop :=
  bs "INCLUDE" <+: b.name → ¬ bs "INCLUDE_MULTISCALE" <+: b.name → b.cards ≠ [] →
    if b.name = bs "INCLUDE" ∨ b.name = bs "INCLUDE_PATH" ∨ b.name = bs "INCLUDE_PATH_RELATIVE" then
      ∃ ns, Names b.cards ns
    else ∃ c more line n, b.cards = c ++ more ∧ IsName c line n

/-- Part of the specification: all files are read without the deviations of C41 and C43, and their names are written as
specified. -/
def GoodWorld (w : World) : Prop :=
  ∀ f content, w.content f = some content → Readable w content ∧ ∀ b ∈ fileBlocks content, NamesOk b

theorem warn_inv {s r : Shared} {m : Bytes} (h : s.warn m = .ok r) :
    m.length < 1024 ∧ r = { s with warnings := s.warnings ++ [m] } := by
  unfold Shared.warn pushF at h
  by_cases hm : m.length < 1024
  · rw [if_pos hm] at h
    cases h
    exact ⟨hm, rfl⟩
  · rw [if_neg hm] at h
    cases h

theorem error_inv {s r : Shared} {m : Bytes} (h : s.error m = .ok r) :
    m.length < 1024 ∧ r = { s with errors := s.errors ++ [m] } := by
  unfold Shared.error pushF at h
  by_cases hm : m.length < 1024
  · rw [if_pos hm] at h
    cases h
    exact ⟨hm, rfl⟩
  · rw [if_neg hm] at h
    cases h

theorem resolve_inv {w : World} {name : Bytes} : ∀ {paths : List Bytes} {r : Option Bytes},
    resolve w paths name = .ok r →
    (∃ full, r = some full ∧ Found w paths name full) ∨ (r = none ∧ NotFound w paths name) := by
  intro paths
  induction paths with
  | nil =>
    intro r h
    cases h
    exact .inr ⟨rfl, fun q hq => by cases hq⟩
  | cons p ps ih =>
    intro r h
    unfold resolve at h
    obtain ⟨full, h1, h2⟩ := bind_ok_inv h
    cases hf : w.isFile full with
    | true =>
      rw [hf, if_pos rfl] at h2
      cases h2
      exact .inl ⟨full, rfl, [], p, ps, rfl, h1, hf, fun q hq => by cases hq⟩
    | false =>
      rw [hf, if_neg (by simp)] at h2
      rcases ih h2 with ⟨g, e, pre, q, post, k1, k2, k3, k4⟩ | ⟨e, k⟩
      · refine .inl ⟨g, e, p :: pre, q, post, by rw [k1]; rfl, k2, k3, ?_⟩
        intro x hx
        rcases List.mem_cons.1 hx with rfl | hx
        · exact ⟨full, h1, hf⟩
        · exact k4 x hx
      · refine .inr ⟨e, ?_⟩
        intro x hx
        rcases List.mem_cons.1 hx with rfl | hx
        · exact ⟨full, h1, hf⟩
        · exact k x hx

/-- The claim for the files that are included. -/
def IncMeans (w : World) (cfg : Config) (root : Bytes) (inc : Bytes → Shared → Res Shared) : Prop :=
  ∀ f s r, inc f s = .ok r → ∃ o, Means w cfg root (.file f) s.paths o ∧
    ∀ s' : Shared, s'.paths = s.paths → inc f s' = .ok (s'.behind o)

theorem includes_exist {w : World} {cfg : Config} {root : Bytes} {inc : Bytes → Shared → Res Shared}
    (H : IncMeans w cfg root inc) (f : Bytes) : ∀ (ns : List (Nat × Bytes)) (s r : Shared),
    includeAll w cfg inc f ns s = .ok r → ∃ o, Means w cfg root (.includes f ns) s.paths o ∧
      ∀ s' : Shared, s'.paths = s.paths → includeAll w cfg inc f ns s' = .ok (s'.behind o) := by
  intro ns
  induction ns with
  | nil =>
    intro s r _
    refine ⟨_, .done, ?_⟩
    intro s' hs
    show Res.ok s' = _
    rw [← hs, behind_self]
  | cons x ns ih =>
    obtain ⟨line, n⟩ := x
    intro s r h
    rw [includeAll_cons] at h
    obtain ⟨s1, h1, h2⟩ := bind_ok_inv h
    unfold includeFile at h1
    obtain ⟨q, h3, h4⟩ := bind_ok_inv h1
    rcases resolve_inv h3 with ⟨full, rfl, hf⟩ | ⟨rfl, hf⟩
    · simp only at h4
      obtain ⟨o, k1, k2⟩ := H full s s1 h4
      have e1 := k2 s rfl
      rw [h4] at e1
      injection e1 with e1
      subst e1
      obtain ⟨o', k3, k4⟩ := ih _ _ h2
      refine ⟨o.behind o', .found hf k1 k3, ?_⟩
      intro s' hs
      rw [includeAll_cons]
      unfold includeFile
      rw [hs, h3]
      simp only [Res.bind_ok]
      rw [k2 s' hs]
      simp only [Res.bind_ok]
      rw [k4 (s'.behind o) rfl, behind_assoc]
    · simp only at h4
      rw [notFoundMsg_eq] at h4
      cases hig : cfg.ignoreNotFound with
      | true =>
        rw [hig, if_pos rfl] at h4
        obtain ⟨hlen, e⟩ := warn_inv h4
        subst e
        obtain ⟨o', k3, k4⟩ := ih _ _ h2
        refine ⟨_, .notFound hf hlen k3, ?_⟩
        intro s' hs
        rw [includeAll_cons]
        unfold includeFile
        rw [hs, h3]
        simp only [Res.bind_ok]
        rw [notFoundMsg_eq, hig]
        simp only [if_true]
        rw [warn_ok s' hlen]
        simp only [Res.bind_ok]
        rw [k4 { s' with warnings := s'.warnings ++ [noFileMsg f line n] } hs, ← behind_assoc]
        simp [Shared.behind]
      | false =>
        rw [hig, if_neg (by simp)] at h4
        obtain ⟨hlen, e⟩ := error_inv h4
        subst e
        obtain ⟨o', k3, k4⟩ := ih _ _ h2
        refine ⟨_, .notFound hf hlen k3, ?_⟩
        intro s' hs
        rw [includeAll_cons]
        unfold includeFile
        rw [hs, h3]
        simp only [Res.bind_ok]
        rw [notFoundMsg_eq, hig]
        simp only [Bool.false_eq_true, if_false]
        rw [error_ok s' hlen]
        simp only [Res.bind_ok]
        rw [k4 { s' with errors := s'.errors ++ [noFileMsg f line n] } hs, ← behind_assoc]
        simp [Shared.behind]

theorem names_run_inv {w : World} {cfg : Config} {root : Bytes} {inc : Bytes → Shared → Res Shared}
    {file nm : Bytes} {k : Local → Shared → Bytes → Res (Local × Shared)}
    (H : ∀ i, NameStep w cfg root inc file nm i k)
    {g : Nat → Nat → Shared → Bytes → Res Shared}
    (hg : ∀ i line q s n, k ⟨nm, i, line, q⟩ s n =
      (g i line s n >>= fun s' => .ok (⟨nm, i + 1, line, none⟩, s')))
    {cards ns : List (Nat × Bytes)} (hn : Names cards ns) (h0 : ∀ x ∈ cards, 0 ∉ x.2) :
    ∀ (i lc : Nat) (s : Shared) (r : Local × Shared),
      cardsRun w cfg root inc file cards ⟨nm, i, lc, none⟩ s = .ok r → ∃ s', namesFold g i ns s = .ok s' := by
  induction hn with
  | nil => intro i lc s r _; exact ⟨s, rfl⟩
  | cons hc _ ih =>
    intro i lc s r h
    obtain ⟨q, hq⟩ := name_run (H i) hc (fun x hx => h0 x (by simp [hx])) _ s lc
    rw [hq, hg] at h
    obtain ⟨a, h1, h2⟩ := bind_ok_inv h
    obtain ⟨s1, h3, h4⟩ := bind_ok_inv h1
    cases h4
    obtain ⟨s', h5⟩ := ih (fun x hx => h0 x (by simp [hx])) (i + 1) _ s1 r h2
    refine ⟨s', ?_⟩
    simp only [namesFold]
    rw [h3]
    exact h5

theorem superfluous_inv {w : World} {cfg : Config} {root : Bytes}
    {inc : Bytes → Shared → Res Shared} {file nm : Bytes} {i0 : Nat}
    (H : ∀ (l : Local) (s : Shared) (cells : Bytes), l.name = nm → i0 ≤ l.cardIndex →
      cardStep w cfg root inc file l s cells = superfluous nm true file l s)
    (cards : List (Nat × Bytes)) :
    ∀ (i lc : Nat) (s : Shared) (p : Option Bytes) (r : Local × Shared), i0 ≤ i →
      cardsRun w cfg root inc file cards ⟨nm, i, lc, p⟩ s = .ok r →
      ∀ m ∈ cards.mapIdx (fun j x => extraCardMsg file x.1 nm (i + 1 + j)), m.length < 1024 := by
  induction cards with
  | nil => intro i lc s p r _ _ m hm; simp at hm
  | cons x xs ih =>
    intro i lc s p r hi h
    have hmap : (x :: xs).mapIdx (fun j x => extraCardMsg file x.1 nm (i + 1 + j)) =
        extraCardMsg file x.1 nm (i + 1) ::
          xs.mapIdx (fun j x => extraCardMsg file x.1 nm (i + 1 + 1 + j)) := by
      rw [List.mapIdx_cons]
      congr 1
      apply List.mapIdx_eq_mapIdx_iff.2
      intro j hj
      rw [show i + 1 + (j + 1) = i + 1 + 1 + j by omega]
    rw [hmap]
    simp only [cardsRun] at h
    obtain ⟨a, h1, h2⟩ := bind_ok_inv h
    rw [H ⟨nm, i, x.1, p⟩ s _ rfl hi] at h1
    unfold superfluous at h1
    simp only [if_true] at h1
    have he : place file x.1 ++ bs "Invalid number of cards (" ++ dec (i + 1) ++ bs ") for " ++ nm ++
        bs " keyword" = extraCardMsg file x.1 nm (i + 1) := by
      unfold place extraCardMsg
      have : bs ": Invalid number of cards (" = bs ": " ++ bs "Invalid number of cards (" := by
        decide +kernel
      rw [this]; simp only [List.append_assoc]
    rw [he] at h1
    obtain ⟨s1, h3, h4⟩ := bind_ok_inv h1
    cases h4
    intro m hm
    rcases List.mem_cons.1 hm with rfl | hm
    · exact (warn_inv h3).1
    · exact ih _ _ _ _ _ (by show i0 ≤ i + 1; omega) h2 m hm

theorem dirs_exist {w : World} {f kind : Bytes} {full : Bytes → Res Bytes} :
    ∀ (ns : List (Nat × Bytes)) (i : Nat) (s r : Shared), namesFold (fun _ => addDir w kind full f) i ns s = .ok r →
      ∃ dirs : List (Nat × Bytes), dirs.map Prod.fst = ns.map Prod.fst ∧
        ns.map (fun n => full n.2) = dirs.map (fun d => .ok d.2) ∧
        ∀ d ∈ dirs, w.isDir d.2 = false → (noDirMsg f d.1 kind d.2).length < 1024 := by
  intro ns
  induction ns with
  | nil => intro i s r _; exact ⟨[], rfl, rfl, by simp⟩
  | cons x xs ih =>
    intro i s r h
    simp only [namesFold] at h
    obtain ⟨s1, h1, h2⟩ := bind_ok_inv h
    obtain ⟨dirs, k1, k2, k3⟩ := ih _ _ _ h2
    unfold addDir at h1
    obtain ⟨p, h3, h4⟩ := bind_ok_inv h1
    refine ⟨(x.1, p) :: dirs, by simp [k1], by simp [k2, h3], ?_⟩
    intro d hd hdir
    rcases List.mem_cons.1 hd with rfl | hd
    · rw [hdir, if_neg (by simp)] at h4
      exact (warn_inv h4).1
    · exact k3 d hd hdir

theorem block_exist {w : World} {cfg : Config} {root : Bytes} {inc : Bytes → Shared → Res Shared}
    (H : IncMeans w cfg root inc) (f : Bytes) {b : Block} (hb : NamesOk b) (h0 : ∀ c ∈ b.cards, 0 ∉ c.2)
    {lc : Nat} {s : Shared} {r : Local × Shared}
    (h : cardsRun w cfg root inc f b.cards ⟨b.name, 0, lc, none⟩ s = .ok r) :
    ∃ o, Means w cfg root (.block f b) s.paths o ∧ BlockOk w cfg root inc f b s.paths o := by
  by_cases hne : b.cards = []
  · obtain ⟨name, cards⟩ := b
    dsimp only at hne
    subst hne
    refine ⟨_, .noCards, ?_⟩
    intro lc s' hs _ hne
    have hn : name ≠ [] := by
      rcases hne with h | h
      · exact h
      · exact absurd rfl h
    refine ⟨_, _, rfl, rfl, rfl, .inl hn, ?_⟩
    simp [closeKeyword, hn, Shared.emit, Shared.behind, hs]
  · have rep : ∀ {texts}, Reported cfg b texts →
        ∃ o, Means w cfg root (.block f b) s.paths o ∧ BlockOk w cfg root inc f b s.paths o :=
      fun hr => ⟨_, .reported hne hr, block_reported hne hr⟩
    by_cases hpre : bs "INCLUDE" <+: b.name
    · by_cases hms : bs "INCLUDE_MULTISCALE" <+: b.name
      · exact rep (.plain (.inr hms))
      · have hbn := hb hpre hms hne
        by_cases hk : b.name = bs "INCLUDE" ∨ b.name = bs "INCLUDE_PATH" ∨ b.name = bs "INCLUDE_PATH_RELATIVE"
        · rw [if_pos hk] at hbn
          obtain ⟨ns, hn⟩ := hbn
          cases hcfg : cfg.parseIncludes with
          | false => exact rep (.names hcfg hk hn)
          | true =>
            have paths : ∀ full : Bytes → Res Bytes,
                (∀ i, NameStep w cfg root inc f b.name i (pathName w b.name full f)) →
                ∃ dirs : List (Nat × Bytes), dirs.map Prod.fst = ns.map Prod.fst ∧
                  ns.map (fun n => full n.2) = dirs.map (fun d => .ok d.2) ∧
                  ∀ d ∈ dirs, w.isDir d.2 = false → (noDirMsg f d.1 b.name d.2).length < 1024 := by
              intro full HS
              obtain ⟨s', hs'⟩ := names_run_inv HS (g := fun _ => addDir w b.name full f) (by
                intro i line q s n
                unfold pathName addDir
                cases full n with
                | ok p =>
                  simp only [Res.bind_ok]
                  rw [noDirMsg_eq]
                  split
                  · rfl
                  · rfl
                | err => rfl
                | ub => rfl
                | abort => rfl) hn h0 0 lc s r h
              exact dirs_exist ns 0 s s' hs'
            rcases hk with hk | hk | hk
            · obtain ⟨s', hs'⟩ := names_run_inv (w := w) (cfg := cfg) (root := root) (inc := inc) (file := f)
                (nm := b.name) (fun i => step_include hcfg i (.inl hk))
                (g := fun _ line s n => includeFile w cfg inc f line s n)
                (fun i line q s n => rfl) hn h0 0 lc s r h
              obtain ⟨o, k1, k2⟩ := includes_exist H f ns s s' hs'
              exact ⟨o, .includes hcfg hk hne hn k1, block_includes hcfg hk hne hn k2⟩
            · obtain ⟨dirs, k1, k2, k3⟩ := paths (fun n => .ok n) (by rw [hk]; exact fun i => step_path hcfg i)
              have hd : dirs = ns := by
                clear hn hne hb h h0 rep k3 paths
                induction ns generalizing dirs with
                | nil => simpa using k1
                | cons x xs ih =>
                  cases dirs with
                  | nil => simp at k1
                  | cons d ds =>
                    simp only [List.map_cons, List.cons.injEq, Res.ok.injEq] at k1 k2
                    rw [ih ds k1.2 k2.2, Prod.ext k1.1 k2.1.symm]
              exact ⟨_, .path hcfg hne hn (.inl ⟨hk, hd⟩) k3, block_path hcfg hne hn (.inl ⟨hk, hd⟩) k3⟩
            · obtain ⟨dirs, k1, k2, k3⟩ := paths (fun n => pathJoin root n)
                (by rw [hk]; exact fun i => step_pathRelative hcfg i)
              exact ⟨_, .path hcfg hne hn (.inr ⟨hk, k1, k2⟩) k3, block_path hcfg hne hn (.inr ⟨hk, k1, k2⟩) k3⟩
        · rw [if_neg hk] at hbn
          obtain ⟨c, more, line, n, hcards, hn⟩ := hbn
          by_cases hbin : b.name = bs "INCLUDE_BINARY" ∨ b.name = bs "INCLUDE_NASTRAN"
          · cases hcfg : cfg.parseIncludes with
            | false => exact rep (.first hpre hms (.inr ⟨hcfg, hbin⟩) hcards hn)
            | true =>
              have HS := step_include (w := w) (cfg := cfg) (root := root) (inc := inc) (file := f)
                (nm := b.name) hcfg 0 (.inr ⟨rfl, hbin⟩)
              obtain ⟨q, hq⟩ := name_run HS hn (fun x hx => h0 x (by rw [hcards]; simp [hx])) more s lc
              rw [hcards, hq] at h
              obtain ⟨a, h1, h2⟩ := bind_ok_inv h
              unfold includeName at h1
              obtain ⟨s1, h3, h4⟩ := bind_ok_inv h1
              cases h4
              have h5 : includeAll w cfg inc f [(line, n)] s = .ok s1 := by
                rw [includeAll_cons, h3]
                rfl
              obtain ⟨o, k1, k2⟩ := includes_exist H f _ s s1 h5
              rcases hbin with hk | hk
              · have hlen : ∀ m ∈ more.mapIdx (fun i x => extraCardMsg f x.1 b.name (i + 2)), m.length < 1024 := by
                  have := superfluous_inv (w := w) (cfg := cfg) (root := root) (inc := inc) (file := f)
                    (nm := b.name) (i0 := 1)
                    (fun l s cells hl hi => by
                      rw [step_binary hcfg l s cells (by rw [hl, hk]) (by omega), hk])
                    more 1 line s1 none r (Nat.le_refl 1) h2
                  have hidx : (more.mapIdx fun i x => extraCardMsg f x.1 b.name (i + 2)) =
                      more.mapIdx fun i x => extraCardMsg f x.1 b.name (1 + 1 + i) := by
                    apply List.mapIdx_eq_mapIdx_iff.2
                    intro j hj
                    rw [show j + 2 = 1 + 1 + j by omega]
                  rw [hidx]
                  exact this
                exact ⟨_, .binary hcfg hk hcards hn k1 hlen, block_binary hcfg hk hcards hn k2 hlen⟩
              · have hlen : ∀ m ∈ (more.drop 1).mapIdx (fun i x => extraCardMsg f x.1 b.name (i + 3)), m.length < 1024 := by
                  cases more with
                  | nil => simp
                  | cons x xs =>
                    simp only [List.drop_succ_cons, List.drop_zero]
                    simp only [cardsRun] at h2
                    rw [step_nastran hcfg _ _ _ hk (by simp)] at h2
                    obtain ⟨a, h6, h7⟩ := bind_ok_inv h2
                    simp only [superfluous, ne_eq, Nat.zero_add, not_true, decide_false, Bool.false_eq_true, if_false,
                      Res.bind_ok, Res.ok.injEq] at h6
                    subst h6
                    have := superfluous_inv (w := w) (cfg := cfg) (root := root) (inc := inc) (file := f)
                      (nm := b.name) (i0 := 2)
                      (fun l s cells hl hi => by
                        rw [step_nastran hcfg l s cells (by rw [hl, hk]) (by omega), hk,
                          decide_eq_true (show l.cardIndex ≠ 1 by omega)])
                      xs 2 x.1 s1 none r (Nat.le_refl 2) h7
                    have hidx : (xs.mapIdx fun i x => extraCardMsg f x.1 b.name (i + 3)) =
                        xs.mapIdx fun i x => extraCardMsg f x.1 b.name (2 + 1 + i) := by
                      apply List.mapIdx_eq_mapIdx_iff.2
                      intro j hj
                      rw [show j + 3 = 2 + 1 + j by omega]
                    rw [hidx]
                    exact this
                exact ⟨_, .nastran hcfg hk hcards hn k1 hlen, block_nastran hcfg hk hcards hn k2 hlen⟩
          · refine rep (.first hpre hms (.inl ?_) hcards hn)
            intro hm
            unfold handled at hm
            simp only [List.mem_cons, List.not_mem_nil, or_false] at hm
            rcases hm with hm | hm | hm | hm | hm
            · exact hk (.inl hm)
            · exact hbin (.inl hm)
            · exact hbin (.inr hm)
            · exact hk (.inr (.inl hm))
            · exact hk (.inr (.inr hm))
    · exact rep (.plain (.inl hpre))

theorem blocks_exist {w : World} {cfg : Config} {root : Bytes} {inc : Bytes → Shared → Res Shared}
    (H : IncMeans w cfg root inc) (f : Bytes) : ∀ (bl : List Block) (b : Block) (xs : List (Nat × Bytes)) (lc : Nat)
    (s r : Shared), LinesOk xs → nextCards xs = b.cards → numberedBlocks xs = bl → (∀ c ∈ b :: bl, NamesOk c) →
      (b.name ≠ [] ∨ b.cards ≠ []) → visLoop w cfg root inc f xs ⟨b.name, 0, lc, none⟩ s = .ok r →
      ∃ o, Means w cfg root (.blocks f (b :: bl)) s.paths o ∧ BlocksOk w cfg root inc f (b :: bl) s.paths o := by
  intro bl
  induction bl with
  | nil =>
    intro b xs lc s r hx hc hbl hok hne h
    obtain ⟨tail, h1, h2, h3⟩ := nextCards_split xs
    have hcards : ∀ x ∈ nextCards xs, isHeader (cut x.2) = false := by
      intro x hm
      have := List.all_eq_true.1
        (List.all_takeWhile (p := fun x : Nat × Bytes => !isHeader (cut x.2)) (l := xs)) x hm
      simpa using this
    have hsub : ∀ x ∈ nextCards xs, x ∈ xs := fun x hm => (List.takeWhile_prefix _).subset hm
    rw [h1, visLoop_cards w cfg root inc f _ _ hcards, hc] at h
    obtain ⟨a, h4, _⟩ := bind_ok_inv h
    obtain ⟨o, k1, k2⟩ := block_exist H f (hok b List.mem_cons_self)
      (by rw [← hc]; exact fun c hm => (hx c (hsub c hm)).1) h4
    exact ⟨_, .cons k1 .nil, blocks_cons k2 rfl⟩
  | cons b2 bl ih =>
    intro b xs lc s r hx hc hbl hok hne h
    obtain ⟨tail, h1, h2, h3⟩ := nextCards_split xs
    have hcards : ∀ x ∈ nextCards xs, isHeader (cut x.2) = false := by
      intro x hm
      have := List.all_eq_true.1
        (List.all_takeWhile (p := fun x : Nat × Bytes => !isHeader (cut x.2)) (l := xs)) x hm
      simpa using this
    have hsub : ∀ x ∈ nextCards xs, x ∈ xs := fun x hm => (List.takeWhile_prefix _).subset hm
    have hcz : ∀ c ∈ b.cards, 0 ∉ c.2 := by rw [← hc]; exact fun c hm => (hx c (hsub c hm)).1
    rw [h1, visLoop_cards w cfg root inc f _ _ hcards, hc] at h
    obtain ⟨a, h4, h5⟩ := bind_ok_inv h
    obtain ⟨o, k1, k2⟩ := block_exist H f (hok b List.mem_cons_self) hcz h4
    obtain ⟨l', s', e1, e2, e3, e4, e5⟩ := k2 lc s rfl hcz hne
    rw [h4] at e1
    injection e1 with e1
    subst e1
    rw [h3] at hbl
    cases tail with
    | nil => cases hbl
    | cons x ys =>
      have hh : isHeader (cut x.2) = true := by
        unfold nextCards at h2
        rw [List.takeWhile_cons] at h2
        cases hx : isHeader (cut x.2) with
        | true => rfl
        | false => rw [hx] at h2; simp at h2
      by_cases he : isEnd (cut x.2) = true
      · rw [numberedBlocks, if_pos he] at hbl
        cases hbl
      · rw [numberedBlocks, if_neg he, if_pos hh] at hbl
        injection hbl with hb2 hbl
        subst hb2
        simp only [visLoop, hh, if_true, if_neg he, e3] at h5
        have hp : (closeKeyword l' s').paths = o.paths := by rw [e5]; rfl
        obtain ⟨o', k3, k4⟩ := ih ⟨headerName (cut x.2), nextCards ys⟩ ys x.1 (closeKeyword l' s') r
          (fun y hy => hx y (by rw [h1]; simp [hy])) rfl hbl (fun c hcm => hok c (List.mem_cons_of_mem _ hcm))
          (.inl ((hx x (by rw [h1]; simp)).2 hh)) h5
        rw [hp] at k3 k4
        exact ⟨_, .cons k1 k3, blocks_cons k2 k4⟩

theorem file_exist {w : World} {cfg : Config} {root : Bytes} (hw : GoodWorld w) :
    ∀ depth, IncMeans w cfg root (parseFile w cfg root depth) := by
  intro depth
  induction depth with
  | zero => intro f s r h; cases h
  | succ d H =>
    intro f s r h
    cases hc : w.content f with
    | none =>
      simp only [parseFile, hc] at h
      have hlen := (error_inv h).1
      refine ⟨_, .unreadable hc hlen, ?_⟩
      intro s' hs
      simp only [parseFile, hc]
      rw [error_ok s' hlen]
      simp [Shared.behind, hs, openMsg]
    | some content =>
      obtain ⟨hr, hn⟩ := hw f content hc
      have hlo := linesOk_of_readable hr 1
      by_cases he : fileBlocks content = [] ∧ NoHeader (textLines content)
      · refine ⟨_, .empty hc hr he.1 he.2, ?_⟩
        intro s' hs
        rw [parseFile_vis hc hr]
        have hcn : nextCards (numberedFrom 1 (textLines content)) = [] := by
          have hb := he.1
          unfold fileBlocks at hb
          by_cases hcn : nextCards (numberedFrom 1 (textLines content)) = []
          · exact hcn
          · simp [hcn] at hb
        rw [noHeader_numbered he.2 hcn]
        simp [visLoop, finish, Shared.emit, Shared.behind, hs, show ([] : Bytes) ≠ bs "END" by decide]
      · have hsome : fileBlocks content ≠ [] ∨ ¬ NoHeader (textLines content) := by
          by_cases h1 : fileBlocks content = []
          · exact .inr fun h2 => he ⟨h1, h2⟩
          · exact .inl h1
        rw [parseFile_vis hc hr] at h
        suffices ∃ o, Means w cfg root (.blocks f (fileBlocks content)) s.paths o ∧
            BlocksOk w cfg root (parseFile w cfg root d) f (fileBlocks content) s.paths o by
          obtain ⟨o, k1, k2⟩ := this
          exact ⟨o, .file hc hr hsome k1, file_ok hc hr hsome k2⟩
        by_cases hcn : nextCards (numberedFrom 1 (textLines content)) = []
        · have hfb : fileBlocks content = numberedBlocks (numberedFrom 1 (textLines content)) := by
            unfold fileBlocks; dsimp only; rw [if_pos hcn]; rfl
          rw [hfb] at hn ⊢
          cases hnum : numberedFrom 1 (textLines content) with
          | nil => exact ⟨_, .nil, rfl⟩
          | cons x ys =>
            rw [hnum] at hcn hn h hlo
            have hh : isHeader (cut x.2) = true := by
              unfold nextCards at hcn
              rw [List.takeWhile_cons] at hcn
              cases hx : isHeader (cut x.2) with
              | true => rfl
              | false => rw [hx] at hcn; simp at hcn
            by_cases hend : isEnd (cut x.2) = true
            · rw [numberedBlocks, if_pos hend]
              exact ⟨_, .nil, rfl⟩
            · rw [numberedBlocks, if_neg hend, if_pos hh] at hn ⊢
              simp only [visLoop, hh, if_true, if_neg hend] at h
              have hcl : closeKeyword ({} : Local) s = s := rfl
              rw [hcl] at h
              exact blocks_exist H f _ ⟨headerName (cut x.2), nextCards ys⟩ ys x.1 s r
                (fun y hy => hlo y (by simp [hy])) rfl rfl hn (.inl ((hlo x (by simp)).2 hh)) h
        · have hfb : fileBlocks content = ⟨[], nextCards (numberedFrom 1 (textLines content))⟩ ::
              numberedBlocks (numberedFrom 1 (textLines content)) := by
            unfold fileBlocks; dsimp only; rw [if_neg hcn]; rfl
          rw [hfb] at hn ⊢
          exact blocks_exist H f _ ⟨[], nextCards (numberedFrom 1 (textLines content))⟩ _ 0 s r hlo rfl rfl hn (.inr hcn) h

/-- C68, completeness: if a call returns then it did what a meaning of the file says. -/
theorem c68_complete (w : World) (cfg : Config) (file root : Bytes) (hw : GoodWorld w) (hopen : w.content file ≠ none)
    (hroot : rootFolder w file = .ok root) (depth : Nat) (o : Shared) (h : parseTop w cfg depth file = .ok o) :
    Means w cfg root (.file file) (w.cwd :: cfg.extraPaths) o := by
  unfold parseTop at h
  cases hc : w.content file with
  | none => exact absurd hc hopen
  | some content =>
    rw [hc] at h
    simp only [hroot, Res.bind_ok] at h
    obtain ⟨o', k1, k2⟩ := file_exist hw depth file _ o h
    have := k2 _ rfl
    rw [h] at this
    injection this with this
    have e : o = o' := by
      rw [this]
      simp [Shared.behind]
    rw [e]
    exact k1

/-- C68: with an unbounded stack the call returns `o` if and only if `o` is the meaning of the file. -/
theorem c68_exact (w : World) (cfg : Config) (file root : Bytes) (hw : GoodWorld w) (hopen : w.content file ≠ none)
    (hroot : rootFolder w file = .ok root) (o : Shared) :
    (∃ depth, parseTop w cfg depth file = .ok o) ↔ Means w cfg root (.file file) (w.cwd :: cfg.extraPaths) o := by
  constructor
  · rintro ⟨depth, h⟩
    exact c68_complete w cfg file root hw hopen hroot depth o h
  · intro h
    obtain ⟨D, hD⟩ := c68_meaning w cfg file root o hopen hroot h
    exact ⟨D, hD D (Nat.le_refl _)⟩

/-- The files of the example of C68 meet the condition. -/
theorem c68_good_world : GoodWorld meaningWorld := by
  have hb : fileBlocks (bs
      "*NODE\n1 $ c\n$ x\n*INCLUDE_PATH_RELATIVE\n inc \nnone\n*INCLUDE\nlong +\nname.k\nc.k\n*INCLUDE_BINARY\nb.bin\nx\n*PART\n*END\n*X\n") =
      [⟨bs "NODE", [(2, bs "1 $ c")]⟩, ⟨bs "INCLUDE_PATH_RELATIVE", [(5, bs " inc "), (6, bs "none")]⟩,
        ⟨bs "INCLUDE", [(8, bs "long +"), (9, bs "name.k"), (10, bs "c.k")]⟩,
        ⟨bs "INCLUDE_BINARY", [(12, bs "b.bin"), (13, bs "x")]⟩, ⟨bs "PART", []⟩] := by decide +kernel
  have n1 : IsName [(5, bs " inc ")] 5 (bs "inc") := IsName.line 5 (bs " inc ") (by decide +kernel)
    (by decide +kernel) (by decide +kernel)
  have n2 : IsName [(6, bs "none")] 6 (bs "none") := IsName.line 6 (bs "none") (by decide +kernel)
    (by decide +kernel) (by decide +kernel)
  have n3 : IsName [(10, bs "c.k")] 10 (bs "c.k") := IsName.line 10 (bs "c.k") (by decide +kernel)
    (by decide +kernel) (by decide +kernel)
  have n4 : IsName [(12, bs "b.bin")] 12 (bs "b.bin") := IsName.line 12 (bs "b.bin")
    (by decide +kernel) (by decide +kernel) (by decide +kernel)
  have n5 : IsName [(8, bs "long +"), (9, bs "name.k")] 9 (bs "longname.k") :=
    IsName.name [(8, bs "long")] 9 (bs "name.k") (by decide +kernel) (by decide +kernel)
      (by decide +kernel) (by decide +kernel)
  intro f content h
  unfold meaningWorld at h
  dsimp only at h
  split at h
  · cases h
    refine ⟨readable_small (by decide +kernel) (by decide +kernel) (by decide +kernel) (by decide +kernel), ?_⟩
    rw [hb]
    intro b hm
    simp only [List.mem_cons, List.not_mem_nil, or_false] at hm
    rcases hm with rfl | rfl | rfl | rfl | rfl
    · intro hpre
      exact absurd hpre (by decide +kernel)
    · intro _ _ _
      rw [if_pos (by decide +kernel)]
      exact ⟨_, .cons n1 (.cons n2 .nil)⟩
    · intro _ _ _
      rw [if_pos (by decide +kernel)]
      exact ⟨_, .cons n5 (.cons n3 .nil)⟩
    · intro _ _ _
      rw [if_neg (by decide +kernel)]
      exact ⟨[(12, bs "b.bin")], [(13, bs "x")], 12, _, rfl, n4⟩
    · intro hpre
      exact absurd hpre (by decide +kernel)
  · split at h
    · cases h
      refine ⟨readable_small (by decide +kernel) (by decide +kernel) (by decide +kernel) (by decide +kernel), ?_⟩
      rw [show fileBlocks (bs "*SET\n7\n8\n") = [⟨bs "SET", [(2, bs "7"), (3, bs "8")]⟩] by decide +kernel]
      intro b hm hpre
      rw [List.mem_singleton] at hm
      subst hm
      exact absurd hpre (by decide +kernel)
    · split at h
      · cases h
        refine ⟨readable_small (by decide +kernel) (by decide +kernel) (by decide +kernel) (by decide +kernel), ?_⟩
        rw [show fileBlocks (bs "$\n") = [] by decide +kernel]
        intro b hm
        cases hm
      · cases h

end Dyna.Key
