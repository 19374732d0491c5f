import Verif.Props.AppsMore

/-! # C90: what the applications write can be read back, and covers every inequivalent structure -/

namespace Verif

open Spec

/-- the file is read, under its own name, as the structure `d` with every number rounded by `rd`; only the real atoms count -/
def ReadsBack (root rd : ℚ → ℚ) (w : List Char × FileContent) (d : GCell) : Prop :=
  ∃ c', readFile root w.2 w.1 none = .ok c' ∧ c'.lattice = V3.map (V3.map rd) d.lattice ∧
    ((c'.positions.zip c'.numbers).filter fun s => s.2 ≠ 0).Perm
      (((d.positions.zip d.numbers).filter fun s => s.2 ≠ 0).map fun s => (V3.map rd s.1, s.2))

/-- at least one site is not a ghost -/
def HasAtom (d : GCell) : Prop := ∃ n ∈ d.numbers, n ≠ 0

theorem mapM_each_ok {α β} (f : α → Py β) : ∀ (l : List α) (bs : List β), l.mapM f = .ok bs → ∀ a ∈ l, ∃ b, f a = .ok b
  | [], _, _, a, ha => by cases ha
  | x :: l, bs, h, a, ha => by
    rw [List.mapM_cons] at h
    obtain ⟨b, h1, h⟩ := bind_ok h
    obtain ⟨bs', h2, _⟩ := bind_ok h
    rcases List.mem_cons.1 ha with rfl | ha
    · exact ⟨b, h1⟩
    · exact mapM_each_ok f l bs' h2 a ha

theorem known_of_names {c : GCell} {names : List String} (h : atomNames c.numbers = .ok names) : ∀ n ∈ c.numbers, Known n := by
  intro n hn
  by_contra hu
  obtain ⟨nm, g1⟩ := mapM_each_ok _ _ _ h n hn
  rw [((C01_number_domain n).2 hu).2] at g1
  cases g1

theorem known_of_writeFile {c : GCell} {p : List Char} {x : FileContent} (h : writeFile c p none = .ok x) : ∀ n ∈ c.numbers, Known n := by
  obtain ⟨f, _, h⟩ := bind_ok h
  cases f with
  | yaml =>
    obtain ⟨d, h1, _⟩ := bind_ok h
    obtain ⟨names, h1, _⟩ := bind_ok h1
    exact known_of_names h1
  | vasp =>
    obtain ⟨d, h1, _⟩ := bind_ok h
    obtain ⟨d, h1, _⟩ := bind_ok h1
    obtain ⟨names, h1, _⟩ := bind_ok h1
    exact known_of_names h1

theorem wants_of_writeFile {c : GCell} {p : List Char} {x : FileContent} (h : writeFile c p none = .ok x) : WantsYaml p none ∨ WantsVasp p none := by
  obtain ⟨f, h1, h⟩ := bind_ok h
  cases f with
  | yaml => exact .inl ((C51_dispatch p none).1.1 h1)
  | vasp => exact .inr ((C51_dispatch p none).2.1.1 h1).2

/-- what `write_file(c, fname)` wrote can be read back under the same name -/
theorem readsBack_writeFile (root : ℚ → ℚ) {c : GCell} (hb : Built c) {p : List Char} {x : FileContent} (h : writeFile c p none = .ok x)
    (hr : HasAtom c) : ReadsBack root round64 (p, x) c := by
  obtain ⟨file, c', h1, h2, h3, h4⟩ := C51_write_read root c p none (wants_of_writeFile h) hb.length.symm (known_of_writeFile h) hr
  rw [h] at h1
  injection h1 with h1
  subst h1
  exact ⟨c', h2, h3, h4⟩

theorem maybeRefined_built {e : Ext} {refined : Bool} {c d : GCell} (hb : Built c) (h : maybeRefined e refined c = .ok d) : Built d := by
  unfold maybeRefined at h
  split at h
  · unfold GCell.getRefinedPcell at h
    split at h
    · cases h
    · exact ⟨_, _, _, h⟩
  · injection h with h; exact h ▸ hb

/-- **C90.** A structure recorded by `ocumaker` or `ocubiter` is read back from its file, whatever the output mode and the path. -/
theorem C90_record (root : ℚ → ℚ) {e : Ext} {refined : Bool} {outmode dir suffix : List Char} {c : GCell} {w : List Char × FileContent} (hb : Built c)
    (h : OccRecord e refined outmode dir suffix c w) : ∃ d, maybeRefined e refined c = .ok d ∧ (HasAtom d → ReadsBack root round64 w d) := by
  obtain ⟨d, cm, h1, _, _, h4⟩ := h
  exact ⟨d, h1, fun hr => readsBack_writeFile root (maybeRefined_built hb h1) h4 hr⟩

/-- **C90.** A superlattice recorded by `suplat` is read back from its file. -/
theorem C90_suplat_record (root : ℚ → ℚ) {e : Ext} {v : ℕ} {outmode dir suffix : List Char} {s : SLCell} {w : List Char × FileContent}
    (h : SupRecord e v outmode dir suffix s w) : ∃ c d, s.toGeneralCell = .ok c ∧ c.getShapedCell e = .ok d ∧ (HasAtom d → ReadsBack root round64 w d) := by
  obtain ⟨c, d, h1, h2, _, h4⟩ := h
  refine ⟨c, d, h1, h2, fun hr => readsBack_writeFile root ?_ h4 hr⟩
  unfold GCell.getShapedCell at h2
  split at h2
  · cases h2
  · obtain ⟨ns, _, h2⟩ := bind_ok h2
    exact ⟨_, _, _, h2⟩

/-- **C90.** A structure recorded by `ocutenter` or `ocumakert` with output mode `vasp` is read back from its file if no part of the path contains
`.yaml` (the older writer does not look at the path, the reader does: otherwise the reader takes the POSCAR for YAML); with any other output mode it is read back always, rounded only once (to
four decimals). -/
theorem C90_ternary_record (root : ℚ → ℚ) {e : Ext} {refined : Bool} {outmode dir : List Char} {a b c' : ℤ} {c : GCell} {w : List Char × FileContent}
    (hb : Built c) (h : TerRecord e refined outmode dir (terNames outmode a b c') c w) : ∃ d, maybeRefined e refined c = .ok d ∧ (HasAtom d →
      (outmode = "vasp".toList → ¬ ".yaml".toList <:+: lower w.1 → ReadsBack root round64 w d) ∧
      (outmode = "vasp".toList → ".yaml".toList <:+: lower w.1 → (∃ s, w.2 = .text s) ∧ dispatch w.1 none = .ok .yaml) ∧
      (outmode ≠ "vasp".toList → ReadsBack root (around 4) w d)) := by
  obtain ⟨d, x, h1, h2, h3⟩ := h
  refine ⟨d, h1, fun hr => ?_⟩
  have hbd := maybeRefined_built hb h1
  obtain ⟨t, ht⟩ := pathJoin_suffix dir ((terNames outmode a b c').1 ++ x ++ (terNames outmode a b c').2)
  have hsuf : lower (terNames outmode a b c').2 <:+ lower w.1 := by
    rw [h2, ht, lower_append, lower_append]
    exact ⟨_, by rw [List.append_assoc]⟩
  unfold terContent at h3
  split at h3
  · rename_i ho
    obtain ⟨s, g1, g2⟩ := bind_ok h3
    injection g2 with g2
    have hk : ∀ n ∈ d.numbers, Known n := by
      obtain ⟨_, h1, _⟩ := bind_ok g1
      obtain ⟨names, h1, _⟩ := bind_ok h1
      exact known_of_names h1
    have hv : ".vasp".toList <:+ lower w.1 := by
      have e1 : (terNames outmode a b c').2 = ".vasp".toList := by unfold terNames; rw [if_pos ho, if_pos ho]
      rw [e1] at hsuf; exact hsuf
    refine ⟨fun _ hn => ?_, fun _ hy => ?_, fun hn => absurd ho hn⟩
    · have hd : dispatch w.1 none = .ok .vasp := (C51_dispatch w.1 none).2.1.2
        ⟨by rintro (⟨f, hf, _⟩ | hh); · cases hf
            · exact hn hh, .inr (.inl hv)⟩
      have hwr : writeFile d w.1 none = .ok w.2 := by
        unfold writeFile
        rw [hd, ← g2]
        simp only [bind, Except.bind, g1]; rfl
      exact readsBack_writeFile root hbd hwr hr
    · exact ⟨⟨s, g2.symm⟩, (C51_dispatch w.1 none).1.2 (.inr hy)⟩
  · rename_i ho
    refine ⟨fun h => absurd h ho, fun h => absurd h ho, fun _ => ?_⟩
    obtain ⟨y, g1, g2⟩ := bind_ok h3
    injection g2 with g2
    have hk : ∀ n ∈ d.numbers, Known n := by
      obtain ⟨names, h1, _⟩ := bind_ok g1
      exact known_of_names h1
    have hy : ".yaml".toList <:+: lower w.1 := by
      have e1 : (terNames outmode a b c').2 = ".yaml".toList := by unfold terNames; rw [if_neg ho, if_neg ho]
      rw [e1] at hsuf
      exact hsuf.isInfix
    have hd : dispatch w.1 none = .ok .yaml := (C51_dispatch w.1 none).1.2 (.inr hy)
    obtain ⟨y', q1, q2⟩ := C49_old_writer d 1 hk
    rw [g1] at q1
    injection q1 with q1
    subst q1
    obtain ⟨r, hrc⟩ := (C09_constructor_domain (V3.map (V3.map (around 4)) d.lattice) (d.positions.map (V3.map (around 4))) d.numbers).1.2
      ⟨by simpa using hbd.ne_nil, by simp [hbd.length]⟩
    obtain ⟨k1, k2, -⟩ := C09_sites_rearranged _ _ _ _ hrc
    refine ⟨r, ?_, k1, ?_⟩
    · unfold readFile
      rw [hd, ← g2]
      simp only [bind, Except.bind, yamlReadCell, q2, mul_one]
      exact hrc
    · rw [List.zip_map_left] at k2
      have := k2.filter (fun s => s.2 ≠ 0)
      rw [List.filter_map] at this
      exact this

/-- if the structure passes the filters, there is afterwards a file from which it (refined if that was asked) is read back -/
def Delivered (root rd : ℚ → ℚ) (e : Ext) (mpr refined : Bool) (tr : Option (Specie × ℚ)) (fs' : Fs) (r : GCell) : Prop :=
  Passes e mpr tr r → ∃ w, dictGet fs'.files w.1 = some w.2 ∧ ∃ d, maybeRefined e refined r = .ok d ∧ (HasAtom d → ReadsBack root rd w d)

theorem outcome_delivers (root : ℚ → ℚ) {e : Ext} {o : OccOpts} {mpr : Bool} {comment : List Char} {tr : Option (Specie × ℚ)} {cs : List GCell}
    {ws : List (List Char × FileContent)} {fs fs' : Fs} (h : OccOutcome e o mpr comment tr cs ws fs fs') (hn : (ws.map (·.1)).Nodup)
    (hb : ∀ c ∈ cs, Built c) : ∀ r ∈ cs, Delivered root round64 e mpr o.refined tr fs' r := by
  intro r hr hp
  obtain ⟨i, hi, hir⟩ := List.mem_iff_getElem.1 (mem_passers.2 ⟨hr, hp⟩)
  have hm : (r, 1 + i) ∈ (passers e mpr tr cs).zipIdx 1 := by
    rw [List.mem_iff_getElem]
    exact ⟨i, by rw [List.length_zipIdx]; exact hi, by rw [List.getElem_zipIdx, hir]⟩
  obtain ⟨w, hw, hrec⟩ := forall₂_mem_left h.records hm
  exact ⟨w, by rw [h.files]; exact afterWrites_own _ _ hn _ hw, C90_record root (hb r hr) hrec⟩

/-- **C90.** After a finished run of `ocubiter` (correct symmetry operations, no hash collision, no two files of the same name) every way to replace `n`
of the target atoms is, up to symmetry, a structure that the run went through, and that structure can be read back from a file if it passes the filters. -/
theorem C90_ocubiter (root : ℚ → ℚ) {e : Ext} {infile : List Char} {content : FileContent} {o : OccOpts} {fs fs' : Fs}
    (h : ocubiter e infile content o fs = (fs', .ok ()))
    (hsym : ∀ cell, readFile e.root content infile none = .ok cell →
      (cell.positions.map siteKey).Nodup ∧ Spec.SymContract sameKey cell.positions (e.symmetry cell)) :
    ∃ cell ele sp n comment tr g cs ws, OccSetup e (fun s => ((s / 2 + 1 : ℕ) : ℤ)) infile content o cell ele sp n comment tr g ∧ 0 ≤ n ∧
      OccOutcome e o o.mpr comment tr cs ws fs fs' ∧ ∀ D : Set (List ℤ),
        D = {m | ∃ S : Finset ℕ, (∀ i ∈ S, cell.numbers[i]? = some ele.Z) ∧ S.card = n.toNat ∧ Spec.Subst cell.numbers S sp.Z m} →
        Set.InjOn e.hash {m | m.length = cell.positions.length ∧ ∃ d ∈ D, Spec.GeomEquiv siteKey cell.positions (e.symmetry cell) d m} →
        (ws.map (·.1)).Nodup → ∀ m ∈ D, ∃ r : GCell, r.lattice = cell.lattice ∧ r.positions = cell.positions ∧ r.numbers ∈ D ∧
          Spec.GeomEquiv siteKey cell.positions (e.symmetry cell) r.numbers m ∧ Delivered root round64 e o.mpr o.refined tr fs' r := by
  obtain ⟨cell, ele, sp, n, comment, tr, g, cs, ws, h1, h2, h4, h5, h6⟩ := C75_ocubiter h hsym
  refine ⟨cell, ele, sp, n, comment, tr, g, cs, ws, h1, h2, h4, ?_⟩
  intro D hD hinj hn m hm
  have ht := h6 D hD hinj
  obtain ⟨r', hr', hmr⟩ := ht.2.1 m hm
  obtain ⟨r, hr, rfl⟩ := List.mem_map.1 hr'
  exact ⟨r, (h5 r hr).2.1, (h5 r hr).2.2, ht.1 _ hr', hmr, outcome_delivers root h4 hn (fun c hc => (h5 c hc).1) r hr⟩

/-- **C90.** The same for `ocumaker`, for every count `1, 2, …` up to the asked number of speckle atoms. -/
theorem C90_ocumaker (root : ℚ → ℚ) {e : Ext} {infile : List Char} {content : FileContent} {o : OccOpts} {fs fs' : Fs}
    (h : ocumaker e infile content o fs = (fs', .ok ()))
    (hsym : ∀ cell, readFile e.root content infile none = .ok cell →
      (cell.positions.map siteKey).Nodup ∧ Spec.SymContract sameKey cell.positions (e.symmetry cell)) :
    ∃ cell ele sp n comment tr g cs ws, OccSetup e (fun s => (s : ℤ) - 1) infile content o cell ele sp n comment tr g ∧
      OccOutcome e o true comment tr cs ws fs fs' ∧ ∀ D : ℕ → Set (List ℤ),
        (∀ k, D k = {m | ∃ S : Finset ℕ, S.card = k ∧ (∀ i ∈ S, ∃ v, cell.numbers[i]? = some v ∧ v = ele.Z ∧ v ≠ sp.Z) ∧
          Spec.Subst cell.numbers S sp.Z m}) →
        (ws.map (·.1)).Nodup → ∀ k, 1 ≤ k → k ≤ n.toNat - cell.numbers.count sp.Z →
        (∀ j, 1 ≤ j → j ≤ k → Set.InjOn e.hash {m | m.length = cell.positions.length ∧ ∃ d ∈ D j,
            Spec.GeomEquiv siteKey cell.positions (e.symmetry cell) d m}) →
        ∀ m ∈ D k, ∃ r : GCell, r.lattice = cell.lattice ∧ r.positions = cell.positions ∧ r.numbers ∈ D k ∧
          Spec.GeomEquiv siteKey cell.positions (e.symmetry cell) r.numbers m ∧ Delivered root round64 e true o.refined tr fs' r := by
  obtain ⟨cell, ele, sp, n, comment, tr, g, ls, ws, h1, h4, h5, h6⟩ := C75_ocumaker h hsym
  refine ⟨cell, ele, sp, n, comment, tr, g, ls.flatten, ws, h1, h4, ?_⟩
  intro D hD hn k hk1 hk2 hinj m hm
  obtain ⟨k, rfl⟩ : ∃ j, k = j + 1 := ⟨k - 1, by omega⟩
  have hlt : k < ls.length := by omega
  have hl : ls[k]? = some ls[k] := List.getElem?_eq_getElem hlt
  obtain ⟨a1, a2⟩ := h6 D hD k _ hl
  have ht := a2 fun j hj => hinj (j + 1) (by omega) (by omega)
  obtain ⟨r', hr', hmr⟩ := ht.2.1 m hm
  obtain ⟨r, hr, rfl⟩ := List.mem_map.1 hr'
  refine ⟨r, (a1 r hr).2.1, (a1 r hr).2.2, ht.1 _ hr', hmr, ?_⟩
  refine outcome_delivers root h4 hn ?_ r (List.mem_flatten.2 ⟨_, List.getElem_mem hlt, hr⟩)
  intro c hc
  obtain ⟨l, hl, hc⟩ := List.mem_flatten.1 hc
  obtain ⟨i, hi, rfl⟩ := List.mem_iff_getElem.1 hl
  exact ((h6 D hD i _ (List.getElem?_eq_getElem hi)).1 c hc).1

/-- the same for the ternary applications, whose files are new ones -/
def TerDelivered (root : ℚ → ℚ) (e : Ext) (mpr : Bool) (o : TerOpts) (tr : Option (Specie × ℚ)) (fs fs' : Fs) (r : GCell) : Prop :=
  Passes e mpr tr r → ∃ w, dictGet fs'.files w.1 = some w.2 ∧ fs.has w.1 = false ∧ ∃ d, maybeRefined e o.refined r = .ok d ∧ (HasAtom d →
    (o.outmode = "vasp".toList → ¬ ".yaml".toList <:+: lower w.1 → ReadsBack root round64 w d) ∧
    (o.outmode ≠ "vasp".toList → ReadsBack root (around 4) w d))

theorem ter_delivers (root : ℚ → ℚ) {e : Ext} {o : TerOpts} {mpr : Bool} {comment : List Char} {tr : Option (Specie × ℚ)}
    {parts : List ((List Char × List Char) × List GCell)} {wss : List (List (List Char × FileContent))} {fs fs' : Fs}
    (h : TerOutcome e o mpr comment tr parts wss fs fs') {a b c' : ℤ} {cs : List GCell} (hp : (terNames o.outmode a b c', cs) ∈ parts)
    (hb : ∀ c ∈ cs, Built c) : ∀ r ∈ cs, TerDelivered root e mpr o tr fs fs' r := by
  intro r hr hpass
  obtain ⟨ws, hws, hrec⟩ := forall₂_mem_left h.records hp
  obtain ⟨w, hw, hrec⟩ := forall₂_mem_left hrec (mem_passers.2 ⟨hr, hpass⟩)
  have hw' : w ∈ wss.flatten := List.mem_flatten.2 ⟨ws, hws, hw⟩
  obtain ⟨d, d1, d2⟩ := C90_ternary_record root (hb r hr) hrec
  exact ⟨w, h.holds w hw', h.new w hw', d, d1, fun ha => ⟨(d2 ha).1, (d2 ha).2.2⟩⟩

/-- what is asked of the symmetry operations of the cell described by the settings -/
def TerSymmetric (e : Ext) (settings : YDoc) (o : TerOpts) : Prop :=
  ∀ lat pos num cell, settings.lattice = some lat → settings.positions = some pos → settings.numbers = some num →
    GCell.new (smulM ((o.zoom.or settings.zoom).getD 1) lat) pos num = .ok cell →
    (cell.positions.map siteKey).Nodup ∧ Spec.SymContract sameKey cell.positions (e.symmetry cell)

theorem TerSetup.genSetup {e : Ext} {settings : YDoc} {o : TerOpts} {cell : GCell} {size : ℕ} {comment : List Char} {tr : Option (Specie × ℚ)} {g : OGen}
    (h : TerSetup e settings o cell size comment tr g) (hsym : TerSymmetric e settings o) : GenSetup cell (e.symmetry cell) (e.wyckoffs cell) g := by
  obtain ⟨lat, pos, num, h1, h2, h3, h4, -⟩ := h.source
  obtain ⟨k1, k2⟩ := hsym lat pos num cell h1 h2 h3 h4
  exact ⟨⟨_, _, _, h4⟩, k1, k2, h.gen⟩

/-- **C90.** After a finished run of `ocutenter` every way to put the two elements on `n1` and `n2` sites is, up to symmetry, a structure that can be read
back from a new file if it passes the filters. No assumption about file names is needed: `tempfile` never reuses one. -/
theorem C90_ocutenter (root : ℚ → ℚ) {e : Ext} {settings : YDoc} {o : TerOpts} {n1 n2 : ℤ} {fs fs' : Fs}
    (h : ocutenter e settings o n1 n2 fs = (fs', .ok ())) (hsym : TerSymmetric e settings o) :
    ∃ cell size comment tr g sp1 sp2, TerSetup e settings o cell size comment tr g ∧
      Specie.ofSymbol o.s1 = .ok sp1 ∧ Specie.ofSymbol o.s2 = .ok sp2 ∧ 0 ≤ n1 ∧ 0 ≤ n2 ∧ ∀ D : Set (List ℤ),
        D = {m | ∃ S T : Finset ℕ, S ⊆ Finset.range cell.numbers.length ∧ T ⊆ Finset.range cell.numbers.length ∧
          Disjoint S T ∧ S.card = n1.toNat ∧ T.card = n2.toNat ∧ Spec.Subst2 cell.numbers S sp1.Z T sp2.Z m} →
        Set.InjOn e.hash {m | m.length = cell.positions.length ∧ ∃ d ∈ D, Spec.GeomEquiv siteKey cell.positions (e.symmetry cell) d m} →
        ∀ m ∈ D, ∃ r : GCell, r.lattice = cell.lattice ∧ r.positions = cell.positions ∧ r.numbers ∈ D ∧
          Spec.GeomEquiv siteKey cell.positions (e.symmetry cell) r.numbers m ∧ TerDelivered root e o.mpr o tr fs fs' r := by
  obtain ⟨cell, size, comment, tr, g, sp1, sp2, cs, ws, h1, h2, h3, h4, h5, h6, h7⟩ := C66_ocutenter h
  refine ⟨cell, size, comment, tr, g, sp1, sp2, h1, h2, h3, h4, h5, ?_⟩
  intro D hD hinj m hm
  obtain ⟨out, o1, o2, ht⟩ := C21_nodup_trinary e.hash cell _ _ g (h1.genSetup hsym) sp1 n1.toNat sp2 n2.toNat D hD hinj
  rw [h6] at o1
  injection o1 with o1
  subst o1
  obtain ⟨r', hr', hmr⟩ := ht.2.1 m hm
  obtain ⟨r, hr, rfl⟩ := List.mem_map.1 hr'
  exact ⟨r, (o2 r hr).1, (o2 r hr).2, ht.1 _ hr', hmr, ter_delivers root h7 List.mem_cons_self (genNodupTrinary_built h6) r hr⟩

/-- **C90.** The same for `ocumakert`, for every pair of positive counts whose sum leaves at least one target atom. -/
theorem C90_ocumakert (root : ℚ → ℚ) {e : Ext} {settings : YDoc} {o : TerOpts} {fs fs' : Fs}
    (h : ocumakert e settings o fs = (fs', .ok ())) (hsym : TerSymmetric e settings o) :
    ∃ cell size comment tr g, TerSetup e settings o cell size comment tr g ∧ ∀ n1 n2 : ℕ, 1 ≤ n1 → 1 ≤ n2 → n1 + n2 < size →
      ∃ sp1 sp2, Specie.ofSymbol o.s1 = .ok sp1 ∧ Specie.ofSymbol o.s2 = .ok sp2 ∧ ∀ D : Set (List ℤ),
        D = {m | ∃ S T : Finset ℕ, S ⊆ Finset.range cell.numbers.length ∧ T ⊆ Finset.range cell.numbers.length ∧
          Disjoint S T ∧ S.card = n1 ∧ T.card = n2 ∧ Spec.Subst2 cell.numbers S sp1.Z T sp2.Z m} →
        Set.InjOn e.hash {m | m.length = cell.positions.length ∧ ∃ d ∈ D, Spec.GeomEquiv siteKey cell.positions (e.symmetry cell) d m} →
        ∀ m ∈ D, ∃ r : GCell, r.lattice = cell.lattice ∧ r.positions = cell.positions ∧ r.numbers ∈ D ∧
          Spec.GeomEquiv siteKey cell.positions (e.symmetry cell) r.numbers m ∧ TerDelivered root e true o tr fs fs' r := by
  obtain ⟨cell, size, comment, tr, g, structs, wss, h1, h2, h7⟩ := C65_ocumakert h
  refine ⟨cell, size, comment, tr, g, h1, ?_⟩
  intro n1 n2 p1 p2 p3
  obtain ⟨sp1, sp2, s1, s2, h6⟩ := h2 n1 n2 p1 p2 p3
  refine ⟨sp1, sp2, s1, s2, ?_⟩
  intro D hD hinj m hm
  obtain ⟨out, o1, o2, ht⟩ := C21_nodup_trinary e.hash cell _ _ g (h1.genSetup hsym) sp1 n1 sp2 n2 D hD hinj
  rw [h6] at o1
  injection o1 with o1
  subst o1
  obtain ⟨r', hr', hmr⟩ := ht.2.1 m hm
  obtain ⟨r, hr, rfl⟩ := List.mem_map.1 hr'
  refine ⟨r, (o2 r hr).1, (o2 r hr).2, ht.1 _ hr', hmr, ter_delivers root h7 (List.mem_map.2 ⟨(n1, n2), ?_, rfl⟩) (genNodupTrinary_built h6) r hr⟩
  exact ((C65_pairs size).2 n1 n2).2 ⟨p1, p2, p3⟩

/-! ## names of the ternary files -/

/-- the file `p` of the directory is named after the composition `a`, `b`, `c`, in the way asked by the output mode -/
def Spec.NamedAfter (dir p outmode : List Char) (a b c : ℤ) : Prop := ∃ x,
  (outmode = "vasp".toList → p = pathJoin dir ("POSCAR_A".toList ++ intStr a ++ "B".toList ++ intStr b ++ "C".toList ++ intStr c ++ "_".toList ++ x ++ ".vasp".toList)) ∧
  (outmode ≠ "vasp".toList → p = pathJoin dir ("STRUCTURE_A".toList ++ intStr a ++ "B".toList ++ intStr b ++ "C".toList ++ intStr c ++ "_".toList ++ x ++ ".yaml".toList))

theorem namedAfter_of_record {e : Ext} {refined : Bool} {outmode dir : List Char} {a b c' : ℤ} {c : GCell} {w : List Char × FileContent}
    (h : TerRecord e refined outmode dir (terNames outmode a b c') c w) : Spec.NamedAfter dir w.1 outmode a b c' := by
  obtain ⟨_, x, _, h2, _⟩ := h
  refine ⟨x, fun ho => ?_, fun ho => ?_⟩
  · rw [h2]; unfold terNames; rw [if_pos ho, if_pos ho]; rfl
  · rw [h2]; unfold terNames; rw [if_neg ho, if_neg ho]; rfl

theorem ter_changed {e : Ext} {o : TerOpts} {mpr : Bool} {comment : List Char} {tr : Option (Specie × ℚ)}
    {parts : List ((List Char × List Char) × List GCell)} {wss : List (List (List Char × FileContent))} {fs fs' : Fs}
    (h : TerOutcome e o mpr comment tr parts wss fs fs') {p : List Char} (hp : dictGet fs'.files p ≠ dictGet fs.files p) :
    ∃ part ∈ parts, ∃ w, w.1 = p ∧ ∃ r ∈ passers e mpr tr part.2, TerRecord e o.refined o.outmode (structuresDir e comment (e.choices 0)) part.1 r w := by
  have hm : p ∈ wss.flatten.map (·.1) := by
    by_contra hm; exact hp (h.others p hm)
  obtain ⟨w, hw, rfl⟩ := List.mem_map.1 hm
  obtain ⟨ws, hws, hw⟩ := List.mem_flatten.1 hw
  obtain ⟨part, hpart, hrec⟩ := forall₂_mem_right h.records hws
  obtain ⟨r, hr, hrec⟩ := forall₂_mem_right hrec hw
  exact ⟨part, hpart, w, rfl, r, hr, hrec⟩

/-- **C65**, names: every file that a finished run of `ocutenter` adds or changes is named after the numbers of remaining target atoms and of atoms put in for
the first and the second element. -/
theorem C65_names_ocutenter {e : Ext} {settings : YDoc} {o : TerOpts} {n1 n2 : ℤ} {fs fs' : Fs}
    (h : ocutenter e settings o n1 n2 fs = (fs', .ok ())) :
    ∃ cell size comment tr g, TerSetup e settings o cell size comment tr g ∧ ∀ p, dictGet fs'.files p ≠ dictGet fs.files p →
      Spec.NamedAfter (structuresDir e comment (e.choices 0)) p o.outmode (size - n1 - n2) n1 n2 := by
  obtain ⟨cell, size, comment, tr, g, sp1, sp2, cs, ws, h1, h2, h3, h4, h5, h6, h7⟩ := C66_ocutenter h
  refine ⟨cell, size, comment, tr, g, h1, fun p hp => ?_⟩
  obtain ⟨part, hpart, w, rfl, r, _, hrec⟩ := ter_changed h7 hp
  obtain rfl := List.mem_singleton.1 hpart
  exact namedAfter_of_record hrec

/-- **C65**, names: every file that a finished run of `ocumakert` adds or changes is named after a composition `n1`, `n2`, and records a structure of that
composition. -/
theorem C65_names_ocumakert {e : Ext} {settings : YDoc} {o : TerOpts} {fs fs' : Fs} (h : ocumakert e settings o fs = (fs', .ok ())) :
    ∃ cell size comment tr g, TerSetup e settings o cell size comment tr g ∧ ∀ p, dictGet fs'.files p ≠ dictGet fs.files p →
      ∃ n1 n2 : ℕ, 1 ≤ n1 ∧ 1 ≤ n2 ∧ n1 + n2 < size ∧ Spec.NamedAfter (structuresDir e comment (e.choices 0)) p o.outmode ((size : ℤ) - n1 - n2) n1 n2 ∧
        ∃ sp1 sp2 cs, Specie.ofSymbol o.s1 = .ok sp1 ∧ Specie.ofSymbol o.s2 = .ok sp2 ∧ g.genNodupTrinary e.hash sp1 n1 sp2 n2 = .ok cs ∧
          ∃ r ∈ cs, ∃ d, maybeRefined e o.refined r = .ok d ∧ ∃ x, dictGet fs'.files p = some x ∧ terContent o.outmode d = .ok x := by
  obtain ⟨cell, size, comment, tr, g, structs, wss, h1, h2, h7⟩ := C65_ocumakert h
  refine ⟨cell, size, comment, tr, g, h1, fun p hp => ?_⟩
  have hm : p ∈ wss.flatten.map (·.1) := by
    by_contra hm; exact hp (h7.others p hm)
  obtain ⟨w, hw, rfl⟩ := List.mem_map.1 hm
  have hhold := h7.holds w hw
  obtain ⟨ws, hws, hw⟩ := List.mem_flatten.1 hw
  obtain ⟨part, hpart, hrec⟩ := forall₂_mem_right h7.records hws
  obtain ⟨r, hr, hrec⟩ := forall₂_mem_right hrec hw
  obtain ⟨⟨n1, n2⟩, hq, rfl⟩ := List.mem_map.1 hpart
  obtain ⟨q1, q2, q3⟩ := ((C65_pairs size).2 n1 n2).1 hq
  obtain ⟨sp1, sp2, s1, s2, hcs⟩ := h2 n1 n2 q1 q2 q3
  refine ⟨n1, n2, q1, q2, q3, namedAfter_of_record hrec, sp1, sp2, _, s1, s2, hcs, r, (mem_passers.1 hr).1, ?_⟩
  obtain ⟨d, x, d1, _, d3⟩ := hrec
  exact ⟨d, d1, _, hhold, d3⟩

/-- the structures read back from all files -/
def readAll (root : ℚ → ℚ) (fs : Fs) : List (Option (List (V3 ℚ) × List ℤ)) :=
  fs.files.map fun f => match readFile root f.2 f.1 none with | .ok c => some (c.positions, c.numbers) | .error _ => none

set_option maxRecDepth 100000 in
/-- one of three boron atoms is replaced by zinc: all three files of the run are read back as structures with one zinc and two boron atoms -/
example : readAll id (ocubiter (exExt fun k => natStr (1000 + k)) "POSCAR".toList exPoscar { exOpts with nspeckle := some 1, speckle := some "Zn" } ⟨[], []⟩).1 =
    [[30, 5, 5], [5, 30, 5], [5, 5, 30]].map fun l => some ([(0, 0, 0), (1/4, 0, 0), (1/2, 0, 1/2)], l) := by decide +kernel

set_option maxRecDepth 100000 in
/-- the settings of the ternary example meet the hypothesis about the symmetry operations -/
example (choices : ℕ → List Char) (o : TerOpts) (ho : o.zoom = none) : TerSymmetric (exExt choices) exSettings o := by
  intro lat pos num cell h1 h2 h3 h4
  injection h1 with h1; injection h2 with h2; injection h3 with h3
  subst h1 h2 h3
  rw [ho] at h4
  have hp : (GCell.new (smulM ((none : Option ℚ).or exSettings.zoom |>.getD 1) ((3, 0, 0), (0, 3, 0), (0, 0, 3)))
      [(0, 0, 0), (1/4, 0, 0), (1/2, 0, 1/2), (1/2, 1/4, 1/2)] [5, 5, 30, 5] >>= fun c => (.ok c.positions : Py (List (V3 ℚ)))) =
      .ok [(0, 0, 0), (1/4, 0, 0), (1/2, 0, 1/2), (1/2, 1/4, 1/2)] := by decide +kernel
  rw [h4] at hp
  have hp : cell.positions = [(0, 0, 0), (1/4, 0, 0), (1/2, 0, 1/2), (1/2, 1/4, 1/2)] := Except.ok.inj hp
  rw [hp]
  refine ⟨by decide +kernel, ?_⟩
  change Spec.SymContract sameKey _ [(((1, 0, 0), (0, 1, 0), (0, 0, 1)), (0, 0, 0))]
  constructor <;> (unfold sameKey; decide +kernel)

end Verif
