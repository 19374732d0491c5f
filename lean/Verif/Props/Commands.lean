import Verif.Props.AppsMore
import Verif.Props.Super
import Verif.Props.Clarifier
import Verif.Props.Modified

/-! # C78, C79: refined and shaped cells, commands on a single structure -/

namespace Verif

open Spec

/-! ## C78 -/

/-- relabelled crystal: the labels replaced by `ν` -/
theorem crystal_relabel (L : M3 ℚ) (pos : List (V3 ℚ)) (labels : List ℤ) (ν : ℤ → ℤ) :
    CartCrystal L (pos.zip (labels.map ν)) = (fun s : V3 ℚ × ℤ => (s.1, ν s.2)) '' CartCrystal L (pos.zip labels) := by
  rw [List.zip_map_right]
  ext s
  simp only [CartCrystal, Set.mem_image, Set.mem_ofPred_eq, List.mem_map]
  constructor
  · rintro ⟨_, ⟨t, ht, rfl⟩, k, rfl⟩
    exact ⟨_, ⟨t, ht, k, rfl⟩, rfl⟩
  · rintro ⟨_, ⟨t, ht, k, rfl⟩, rfl⟩
    exact ⟨_, ⟨t, ht, rfl⟩, k, rfl⟩

/-- **C78.** `get_refined_cell()` and `get_refined_pcell()` hand the cell to spglib's `standardize_cell` and return exactly the crystal
it answers with: the lattice, and every atom at its place with its element. -/
theorem C78_refined (e : Ext) (c : GCell) (f : GCell → Py GCell) (std : SpgTuple → Option SpgTuple)
    (hf : (f = GCell.getRefinedPcell e ∧ std = e.standardize) ∨ (f = GCell.getRefinedCell e ∧ std = e.standardizeConv)) :
    (std (c.lattice, c.positions, c.numbers) = none → f c = .error .typeError) ∧
    ∀ L pos nums, std (c.lattice, c.positions, c.numbers) = some (L, pos, nums) → pos.length = nums.length → pos ≠ [] →
      ∃ d, f c = .ok d ∧ d.lattice = L ∧ (d.positions.zip d.numbers).Perm (pos.zip nums) ∧ d.numbers.Perm nums ∧
        CartCrystal d.lattice (d.positions.zip d.numbers) = CartCrystal L (pos.zip nums) := by
  have key : ∀ L pos nums, pos.length = nums.length → pos ≠ [] → ∃ d, GCell.new L pos nums = .ok d ∧ d.lattice = L ∧
      (d.positions.zip d.numbers).Perm (pos.zip nums) ∧ d.numbers.Perm nums ∧
        CartCrystal d.lattice (d.positions.zip d.numbers) = CartCrystal L (pos.zip nums) := by
    intro L pos nums hl hne
    obtain ⟨d, hd⟩ := (C09_constructor_domain L pos nums).1.2 ⟨hne, hl.le⟩
    obtain ⟨h1, h2, h3, h4, -⟩ := C09_sites_rearranged _ _ _ _ hd
    refine ⟨d, hd, h1, h2, ?_, by rw [h1]; exact crystal_congr fun s => h2.mem_iff⟩
    have := h2.map Prod.snd
    rwa [List.map_snd_zip (by omega), List.map_snd_zip (by omega)] at this
  rcases hf with ⟨rfl, rfl⟩ | ⟨rfl, rfl⟩
  all_goals
    refine ⟨fun h => ?_, fun L pos nums h hl hne => ?_⟩
    · first
      | unfold GCell.getRefinedPcell
      | unfold GCell.getRefinedCell
      rw [h]
    · obtain ⟨d, hd, hr⟩ := key L pos nums hl hne
      refine ⟨d, ?_, hr⟩
      first
      | unfold GCell.getRefinedPcell
      | unfold GCell.getRefinedCell
      rw [h]
      exact hd

/-- **C78.** `get_shaped_cell()`. Suppose `standardize_cell`, asked about the cell with every atom labelled by its own index, answers
with a cell of the same labels whose crystal is the labelled crystal moved by a map `A` of space. Then the shaped cell has the answered
lattice, as many atoms of every element as before, and its crystal is the original one (elements, not labels) moved by `A`. -/
theorem C78_shaped (e : Ext) (c : GCell) (hlen : c.positions.length = c.numbers.length) (hne : c.positions ≠ []) (L : M3 ℚ)
    (pos : List (V3 ℚ)) (labels : List ℤ) (A : V3 ℚ → V3 ℚ)
    (hs : e.standardize (c.lattice, c.positions, (List.range c.numbers.length).map fun (i : ℕ) => (i : ℤ)) = some (L, pos, labels))
    (hl : pos.length = labels.length)
    (hp : labels.Perm ((List.range c.numbers.length).map fun (i : ℕ) => (i : ℤ)))
    (hA : CartCrystal L (pos.zip labels) = (fun s : V3 ℚ × ℤ => (A s.1, s.2)) ''
      CartCrystal c.lattice (c.positions.zip ((List.range c.numbers.length).map fun (i : ℕ) => (i : ℤ)))) :
    ∃ d, c.getShapedCell e = .ok d ∧ d.lattice = L ∧ d.numbers.Perm c.numbers ∧
      CartCrystal d.lattice (d.positions.zip d.numbers) =
        (fun s : V3 ℚ × ℤ => (A s.1, s.2)) '' CartCrystal c.lattice (c.positions.zip c.numbers) := by
  let ν : ℤ → ℤ := fun i => c.numbers.getD i.toNat 0
  have hν : ((List.range c.numbers.length).map fun (i : ℕ) => (i : ℤ)).map ν = c.numbers := by
    rw [List.map_map]
    apply List.ext_getElem (by simp)
    intro i h1 h2
    simp [ν, h2]
  have hm : labels.mapM (fun i => pyGet c.numbers i) = .ok (labels.map ν) := by
    apply mapM_ok
    intro i hi
    obtain ⟨k, hk, rfl⟩ := List.mem_map.1 (hp.mem_iff.1 hi)
    have hk := List.mem_range.1 hk
    have : pyGet c.numbers (k : ℤ) = .ok c.numbers[k] := by
      have hx : pyIndex c.numbers.length (k : ℤ) = some k := by
        have h0 : ¬ ((k : ℤ) < 0) := by omega
        simp only [pyIndex, h0, if_false]
        rw [if_pos ⟨by omega, by omega⟩, Int.toNat_natCast]
      unfold pyGet
      rw [hx]
      simp [hk]
    rw [this]
    simp [ν, hk]
  have hll := hp.length_eq
  rw [List.length_map, List.length_range] at hll
  have hne' : pos ≠ [] := by
    intro h0
    rw [h0] at hl
    apply hne
    rw [← List.length_eq_zero_iff, hlen, ← hll, ← hl]
    rfl
  obtain ⟨d, hd⟩ := (C09_constructor_domain L pos (labels.map ν)).1.2 ⟨hne', by simp [hl]⟩
  obtain ⟨h1, h2, h3, h4, -⟩ := C09_sites_rearranged _ _ _ _ hd
  refine ⟨d, ?_, h1, ?_, ?_⟩
  · unfold GCell.getShapedCell
    rw [hs]
    simp only [hm, bind, Except.bind, hd]
  · have := h2.map Prod.snd
    rw [List.map_snd_zip (by omega), List.map_snd_zip (by simp [hl])] at this
    rw [← hν]
    exact this.trans (hp.map ν)
  · rw [h1, crystal_congr fun s => h2.mem_iff, crystal_relabel, hA]
    conv_rhs => rw [← hν, crystal_relabel]
    rw [Set.image_image, Set.image_image]

/-! ## output names -/

theorem lower_no_dot {l : List Char} (h : '.' ∉ l) : '.' ∉ lower l := by
  unfold lower
  intro hm
  obtain ⟨c, hc, hd⟩ := List.mem_map.1 hm
  split at hd
  · rename_i hA
    have h1 : 65 ≤ c.toNat := hA.1
    have h2 : c.toNat ≤ 90 := hA.2
    generalize c.toNat = n at *
    interval_cases n <;> exact absurd hd (by decide)
  · exact h (hd ▸ hc)

theorem stem_no_dot (p : List Char) : '.' ∉ stem p := by
  unfold stem
  intro h
  have := List.mem_takeWhile_imp h
  simp at this

theorem basename_split (p : List Char) : ∃ dir, p = dir ++ basename p ∧ (dir = [] ∨ ∃ d, dir = d ++ ['/']) ∧ '/' ∉ basename p := by
  refine ⟨(p.reverse.dropWhile fun c => c ≠ '/').reverse, ?_, ?_, ?_⟩
  · unfold basename
    rw [← List.reverse_append, List.takeWhile_append_dropWhile, List.reverse_reverse]
  · cases h : p.reverse.dropWhile fun c => c ≠ '/' with
    | nil => exact .inl rfl
    | cons x l =>
      right
      have := List.head_dropWhile_not (fun c : Char => decide (c ≠ '/')) (l := p.reverse) (by rw [h]; simp)
      simp only [h, List.head_cons] at this
      have hx : x = '/' := by simpa using this
      exact ⟨l.reverse, by rw [List.reverse_cons, hx]⟩
  · unfold basename
    intro h
    have := List.mem_takeWhile_imp (List.mem_reverse.1 h)
    simp at this

/-- **C79**, the name: `<stem>` is the name of the input file without its directory, up to the first dot – so the output is written to the working directory. -/
theorem C79_stem (p : List Char) : Spec.FileStem p (stem p) := by
  obtain ⟨dir, h1, h2, h3⟩ := basename_split p
  have hs : stem p ++ (basename p).dropWhile (fun c => c ≠ '.') = basename p := List.takeWhile_append_dropWhile
  refine ⟨dir, (basename p).dropWhile fun c => c ≠ '.', ?_, h2, ?_, ?_, stem_no_dot p, ?_⟩
  · rw [List.append_assoc, hs]; exact h1
  · intro h; exact h3 (hs ▸ List.mem_append_left _ h)
  · intro h; exact h3 (hs ▸ List.mem_append_right _ h)
  · cases h : (basename p).dropWhile fun c => c ≠ '.' with
    | nil => exact .inl rfl
    | cons x l =>
      right
      have := List.head_dropWhile_not (fun c : Char => decide (c ≠ '.')) (l := basename p) (by rw [h]; simp)
      simp only [h, List.head_cons] at this
      have hx : x = '.' := by simpa using this
      exact ⟨l, by rw [hx]⟩

/-- a path has only one stem -/
theorem fileStem_unique {p s t : List Char} (hs : Spec.FileStem p s) (ht : Spec.FileStem p t) : s = t := by
  obtain ⟨d, r, h1, h2, h3, h4, h5, h6⟩ := hs
  obtain ⟨d', r', h1', h2', h3', h4', h5', h6'⟩ := ht
  have tw : ∀ (d u : List Char), (d = [] ∨ ∃ e, d = e ++ ['/']) → '/' ∉ u → (d ++ u).reverse.takeWhile (fun c => c ≠ '/') = u.reverse := by
    intro d u hd hu
    rw [List.reverse_append, List.takeWhile_append_of_pos (by
      intro c hc; simp only [ne_eq, decide_not, Bool.not_eq_eq_eq_not, Bool.not_true, decide_eq_false_iff_not]
      rintro rfl; exact hu (List.mem_reverse.1 hc))]
    rcases hd with rfl | ⟨e, rfl⟩
    · simp
    · simp
  have tf : ∀ (s r : List Char), '.' ∉ s → (r = [] ∨ ∃ q, r = '.' :: q) → (s ++ r).takeWhile (fun c => c ≠ '.') = s := by
    intro s r hs hr
    rw [List.takeWhile_append_of_pos (by
      intro c hc; simp only [ne_eq, decide_not, Bool.not_eq_eq_eq_not, Bool.not_true, decide_eq_false_iff_not]
      rintro rfl; exact hs hc)]
    rcases hr with rfl | ⟨q, rfl⟩
    · simp
    · simp
  have e1 := tw d (s ++ r) h2 (by simp [h3, h4])
  have e2 := tw d' (t ++ r') h2' (by simp [h3', h4'])
  rw [← List.append_assoc, ← h1] at e1
  rw [← List.append_assoc, ← h1'] at e2
  have e3 : s ++ r = t ++ r' := List.reverse_injective (e1.symm.trans e2)
  rw [← tf s r h5 h6, e3, tf t r' h5' h6']

example : Spec.FileStem "/data/B.3/POSCAR.vasp".toList "POSCAR".toList :=
  ⟨"/data/B.3/".toList, ".vasp".toList, rfl, .inr ⟨"/data/B.3".toList, rfl⟩, by decide, by decide, by decide, .inr ⟨"vasp".toList, rfl⟩⟩

/-- a name with a single dot contains `.t` only if `t` starts what follows the dot -/
theorem dot_infix {a b t : List Char} (ha : '.' ∉ a) (hb : '.' ∉ b) (h : ('.' :: t) <:+: a ++ '.' :: b) : t <+: b := by
  obtain ⟨x, y, h⟩ := h
  induction a generalizing x with
  | nil =>
    cases x with
    | nil =>
      simp only [List.nil_append, List.cons_append, List.cons.injEq, true_and] at h
      exact ⟨y, h⟩
    | cons c x =>
      simp only [List.cons_append, List.append_assoc, List.nil_append, List.cons.injEq] at h
      exact absurd (by rw [← h.2]; simp : '.' ∈ b) hb
  | cons c a ih =>
    cases x with
    | nil =>
      simp only [List.nil_append, List.cons_append, List.cons.injEq] at h
      exact absurd (by rw [h.1]; simp) ha
    | cons c' x =>
      simp only [List.cons_append, List.cons.injEq] at h
      exact ih (fun hm => ha (List.mem_cons_of_mem _ hm)) x h.2

/-- writing under `name.vasp`, no other dot in the name: POSCAR text -/
theorem writeFile_dot_vasp (c : GCell) {a : List Char} (ha : '.' ∉ a) :
    writeFile c (a ++ ".vasp".toList) none = (vaspString c 1 true).map .text := by
  have hd : dispatch (a ++ ".vasp".toList) none = .ok .vasp := by
    rw [(C51_dispatch _ none).2.1]
    rw [show WantsYaml (a ++ ".vasp".toList) none ↔ ".yaml".toList <:+: lower (a ++ ".vasp".toList) from
      ⟨fun h => h.elim (fun ⟨f, hf, _⟩ => by cases hf) id, .inr⟩, lower_append]
    refine ⟨fun h => ?_, .inr (.inl ?_)⟩
    · have := dot_infix (lower_no_dot ha) (show '.' ∉ "vasp".toList by decide) (t := "yaml".toList) h
      revert this; decide
    · rw [lower_append]; exact ⟨_, rfl⟩
  unfold writeFile
  rw [hd]
  change (vaspString c 1 true >>= fun s => (.ok (.text s) : Py FileContent)) = _
  cases vaspString c 1 true <;> rfl

/-- writing under `name.yaml`: a YAML document -/
theorem writeFile_dot_yaml (c : GCell) (a : List Char) :
    writeFile c (a ++ ".yaml".toList) none = (yamlDoc c).map .doc := by
  have hd : dispatch (a ++ ".yaml".toList) none = .ok .yaml := by
    rw [(C51_dispatch _ none).1]
    exact .inr (by rw [lower_append]; exact ⟨lower a, [], by rw [List.append_nil]; rfl⟩)
  unfold writeFile
  rw [hd]
  change (yamlDoc c >>= fun s => (.ok (.doc s) : Py FileContent)) = _
  cases yamlDoc c <;> rfl

/-! ## C79 -/

theorem knownNumber_iff (n : ℤ) : KnownNumber n ↔ Known n := Iff.rfl

theorem vaspString_ok (c : GCell) (hlen : c.positions.length = c.numbers.length) (hk : ∀ n ∈ c.numbers, Known n) :
    ∃ s, vaspString c 1 true = .ok s := by
  obtain ⟨zs, lines, -, h, -⟩ := C47_internal_consistency c 1 true hlen hk
  exact ⟨_, h⟩

theorem Built.gcellBuilt {c : GCell} (h : Built c) : c.Built := by
  obtain ⟨L, pos, nums, h⟩ := h
  refine ⟨L, pos, nums, c, c.numbers, h, ?_, ?_⟩
  · obtain ⟨l1, l2⟩ := new_lengths h
    omega
  · cases c
    obtain ⟨-, -, -, -, h5⟩ := C09_sites_rearranged _ _ _ _ h
    rfl

open Classical in
/-- the sites `atclear` leaves: all but those of element `el` with an atom of element `cen` closer than the radius -/
noncomputable def keptSites (c : GCell) (cen el : ℤ) (radius : ℚ) : List (V3 ℚ × ℤ) :=
  (c.positions.zip c.numbers).filter fun s =>
    ¬ (s.2 = el ∧ ∃ q ∈ c.positions.zip c.numbers, q.2 = cen ∧ InSphere c.lattice s.1 q.1 radius)

/-- **C79**, `atclear`: the file `<stem>_ACLR.vasp` holds the POSCAR of the cell with exactly the sites of `keptSites` (refined if asked);
if none is left the command fails with `ValueError`. -/
theorem C79_atclear (e : Ext) (fuel : ℕ) (infile : List Char) (content : FileContent) (cenele : String) (radius : ℚ) (ele : String)
    (refined : Bool) (c : GCell) (cen el : Specie) (hr : readFile e.root content infile none = .ok c)
    (hk : ∀ n ∈ c.numbers, Known n) (hcen : Specie.ofSymbol cenele = .ok cen) (hel : Specie.ofSymbol ele = .ok el)
    (hf : c.numbers.length < fuel) :
    (keptSites c cen.Z el.Z radius = [] → atclearCmd e fuel infile content cenele radius ele refined = some (.error .valueError)) ∧
    (keptSites c cen.Z el.Z radius ≠ [] → ∃ g, g.lattice = c.lattice ∧ (g.positions.zip g.numbers).Perm (keptSites c cen.Z el.Z radius) ∧
      g.positions.length = (keptSites c cen.Z el.Z radius).length ∧ g.numbers.length = g.positions.length ∧
      (refined = false → ∃ s, vaspString g 1 true = .ok s ∧
        atclearCmd e fuel infile content cenele radius ele refined = some (.ok (stem infile ++ "_ACLR.vasp".toList, .text s))) ∧
      (refined = true → atclearCmd e fuel infile content cenele radius ele refined =
        some (do let r ← g.getRefinedPcell e; let s ← vaspString r 1 true; return (stem infile ++ "_ACLR.vasp".toList, .text s)))) := by
  classical
  have hb := readFile_built hr
  obtain ⟨w, i, f1, -, f3, f4, f5, f6, f7, -⟩ := C43_round_trip wf_empty c hb.gcellBuilt hk
  have hlen := hb.length
  have hsl : (w.sitesOf i).length = c.numbers.length := by
    have := congrArg List.length f6
    simp only [World.view, List.length_map, List.length_zip] at this
    omega
  obtain ⟨w', g1, g2, g3, g4, -⟩ := C41_element_removal f4.wf f3 cen radius (some el) fuel (by rw [hsl]; exact hf)
  have hsites : (w'.sitesOf i).map (fun r => ((w'.site r).position, (w'.site r).element.Z)) = keptSites c cen.Z el.Z radius := by
    have f6' : (w.sitesOf i).map (fun r => ((w.site r).position, (w.site r).element.Z)) = c.positions.zip c.numbers := by
      rw [← f6]; simp only [World.view, List.map_map]; rfl
    unfold keptSites
    rw [← f6', g2, g3, List.filter_map]
    congr 1
    apply List.filter_congr
    intro r _
    rw [Bool.eq_iff_iff]
    simp only [Function.comp, decide_eq_true_eq, List.mem_map]
    have hL : (w.cell i).lattice = c.lattice := f5
    rw [hL]
    constructor
    · rintro h ⟨h1, _, ⟨q, hq, rfl⟩, h2, h3⟩
      exact h ⟨fun x hx => by injection hx with hx; rw [← hx]; exact h1, q, hq, h2, h3⟩
    · rintro h ⟨h1, q, hq, h2, h3⟩
      exact h ⟨h1 el rfl, _, ⟨q, hq, rfl⟩, h2, h3⟩
  have hto : w'.toGcell i = GCell.new c.lattice ((keptSites c cen.Z el.Z radius).map (·.1)) ((keptSites c cen.Z el.Z radius).map (·.2)) := by
    have hL : (w.cell i).lattice = c.lattice := f5
    unfold World.toGcell
    rw [positions_view, numbers_view, g4, hL, ← hsites]
    simp only [World.view, List.map_map]
    rfl
  have hcmd : atclearCmd e fuel infile content cenele radius ele refined = some (do
      let g ← GCell.new c.lattice ((keptSites c cen.Z el.Z radius).map (·.1)) ((keptSites c cen.Z el.Z radius).map (·.2))
      let g ← maybeRefined e refined g
      let x ← (vaspString g 1 true).map .text
      return (stem infile ++ "_ACLR.vasp".toList, x)) := by
    have hi : atclearInit e infile content cenele ele = .ok ((w, i), cen, el) := by
      unfold atclearInit
      simp only [hr, f1, hcen, hel, bind, Except.bind, pure, Except.pure]
    have hp : stem infile ++ "_ACLR.vasp".toList = (stem infile ++ "_ACLR".toList) ++ ".vasp".toList := by
      rw [List.append_assoc]; rfl
    have hdot : '.' ∉ stem infile ++ "_ACLR".toList := by
      rw [List.mem_append]
      rintro (h | h)
      · exact stem_no_dot _ h
      · revert h; decide
    unfold atclearCmd
    rw [hi]
    simp only [g1, hto, hp, writeFile_dot_vasp _ hdot]
  rw [hcmd]
  constructor
  · intro h0
    rw [h0, List.map_nil, new_nil]
    rfl
  · intro hne
    obtain ⟨d, hd⟩ := (C09_constructor_domain c.lattice ((keptSites c cen.Z el.Z radius).map (·.1)) ((keptSites c cen.Z el.Z radius).map (·.2))).1.2
      ⟨by simpa using hne, by simp⟩
    obtain ⟨h1, h2, h3, h4, -⟩ := C09_sites_rearranged _ _ _ _ hd
    rw [List.zip_map', List.map_id''] at h2
    · refine ⟨d, h1, h2, by simpa using h3, by rw [h4, h3], ?_, ?_⟩
      · rintro rfl
        have hkd : ∀ n ∈ d.numbers, Known n := by
          intro n hn
          have hn' : n ∈ (d.positions.zip d.numbers).map Prod.snd := by rwa [List.map_snd_zip (by omega)]
          obtain ⟨s, hs, rfl⟩ := List.mem_map.1 hn'
          have := (h2.mem_iff).1 hs
          unfold keptSites at this
          exact hk _ (List.of_mem_zip (List.mem_filter.1 this).1).2
        obtain ⟨s, hs⟩ := vaspString_ok d (by omega) hkd
        refine ⟨s, hs, ?_⟩
        rw [hd]
        simp only [maybeRefined, bind, Except.bind, hs, Except.map, pure, Except.pure, Bool.false_eq_true, if_false]
      · rintro rfl
        rw [hd]
        simp only [maybeRefined, bind, Except.bind, if_true]
        cases d.getRefinedPcell e with
        | error er => rfl
        | ok r =>
          simp only
          cases vaspString r 1 true <;> rfl
    · exact fun s => rfl

/-- **C79**, `perturb`: the file `<stem>_PURB.vasp` holds the POSCAR of the cell with the same lattice and elements in which every atom is
moved by a vector of Cartesian length `radius` along its random direction. -/
theorem C79_perturb (e : Ext) (norm : V3 ℚ → ℚ) (rand : List (V3 ℚ)) (infile : List Char) (content : FileContent) (radius : ℚ) (c : GCell)
    (hr : readFile e.root content infile none = .ok c) (hk : ∀ n ∈ c.numbers, Known n) (hv : volume c.lattice ≠ 0)
    (hlen : c.positions.length ≤ (rand.filter fun v => norm v ≠ 0).length) :
    ∃ (pos : List (V3 ℚ)) (g : GCell) (s : List Char), pos.length = c.positions.length ∧
      (∀ (k : ℕ) (p : V3 ℚ), c.positions[k]? = some p → ∃ (p' v u : V3 ℚ), pos[k]? = some p' ∧ (rand.filter fun v => norm v ≠ 0)[k]? = some v ∧
        cartesian c.lattice p' = cartesian c.lattice p + u ∧ distSq u 0 * norm v ^ 2 = radius ^ 2 * distSq v 0 ∧
        (norm v ^ 2 = distSq v 0 → distSq u 0 = radius ^ 2)) ∧
      g.lattice = c.lattice ∧ (g.positions.zip g.numbers).Perm (pos.zip c.numbers) ∧ vaspString g 1 true = .ok s ∧
      perturbCmd e norm rand infile content radius = some (.ok (stem infile ++ "_PURB.vasp".toList, .text s)) := by
  have hb := readFile_built hr
  obtain ⟨w, i, f1, -, f3, f4, f5, f6, f7, f8, -⟩ := C43_round_trip wf_empty c hb.gcellBuilt hk
  have hL : (w.cell i).lattice = c.lattice := f5
  have hcl := hb.length
  have hsl : (w.sitesOf i).length = c.positions.length := by
    have := congrArg List.length f6
    simp only [World.view, List.length_map, List.length_zip] at this
    omega
  obtain ⟨w', g1, g2, g3, g4, -, g6⟩ := C44_perturb w i norm radius rand (by rw [hL]; exact hv) f8 (by rw [hsl]; exact hlen)
  have hpos : (w.sitesOf i).map (fun r => (w.site r).position) = c.positions := by
    have := congrArg (List.map Prod.fst) f6
    rw [List.map_fst_zip (by omega)] at this
    rw [← this]; simp only [World.view, List.map_map]; rfl
  have hnum : (w.sitesOf i).map (fun r => (w.site r).element.Z) = c.numbers := by
    have := congrArg (List.map Prod.snd) f6
    rw [List.map_snd_zip (by omega)] at this
    rw [← this]; simp only [World.view, List.map_map]; rfl
  have hto : w'.toGcell i = GCell.new c.lattice ((w.sitesOf i).map fun r => (w'.site r).position) c.numbers := by
    unfold World.toGcell
    rw [positions_view, numbers_view, g3, hL, ← hnum]
    simp only [World.view, List.map_map, g2, Function.comp_def, g4]
  obtain ⟨d, hd⟩ := (C09_constructor_domain c.lattice ((w.sitesOf i).map fun r => (w'.site r).position) c.numbers).1.2
    ⟨by intro h0; apply hb.ne_nil; rw [← List.length_eq_zero_iff, ← hsl]; rw [List.map_eq_nil_iff] at h0; rw [h0]; rfl, by simp [hsl, hcl]⟩
  obtain ⟨h1, h2, h3, h4, -⟩ := C09_sites_rearranged _ _ _ _ hd
  have hkd : ∀ n ∈ d.numbers, Known n := by
    intro n hn
    have hn' : n ∈ (d.positions.zip d.numbers).map Prod.snd := by rwa [List.map_snd_zip (by omega)]
    obtain ⟨s, hs, rfl⟩ := List.mem_map.1 hn'
    exact hk _ (List.of_mem_zip ((h2.mem_iff).1 hs)).2
  obtain ⟨s, hs⟩ := vaspString_ok d (by omega) hkd
  refine ⟨_, d, s, by simp [hsl], ?_, h1, h2, hs, ?_⟩
  · intro k p hp
    rw [← hpos, List.getElem?_map] at hp
    obtain ⟨r, hr1, rfl⟩ := Option.map_eq_some_iff.1 hp
    obtain ⟨v, u, q1, q2, q3, q4⟩ := g6 k r hr1
    rw [hL] at q2
    exact ⟨_, v, u, by rw [List.getElem?_map, hr1]; rfl, q1, q2, q3, q4⟩
  · have hp : stem infile ++ "_PURB.vasp".toList = (stem infile ++ "_PURB".toList) ++ ".vasp".toList := by
      rw [List.append_assoc]; rfl
    have hdot : '.' ∉ stem infile ++ "_PURB".toList := by
      rw [List.mem_append]
      rintro (h | h)
      · exact stem_no_dot _ h
      · revert h; decide
    have hi : perturbInit e infile content = .ok (w, i) := by
      unfold perturbInit
      simp only [hr, bind, Except.bind, f1]
    unfold perturbCmd
    rw [hi]
    simp only [g1, hto, hd, bind, Except.bind, hp, writeFile_dot_vasp _ hdot, hs, Except.map, pure, Except.pure]

/-- how `supcell` and `pcell` put out a cell of known elements: POSCAR text printed, POSCAR text in `<stem>_<tag>.vasp`, or a YAML document in
`<stem>_<tag>.yaml` -/
def PutOut (g : GCell) (infile tag outmode : List Char) (r : Py CmdOut) : Prop :=
  (outmode = "stdio".toList → ∃ s, vaspString g 1 true = .ok s ∧ r = .ok (none, .text s)) ∧
  (outmode = "vasp".toList → ∃ s, vaspString g 1 true = .ok s ∧ r = .ok (some (stem infile ++ ['_'] ++ tag ++ ".vasp".toList), .text s)) ∧
  (outmode = "yaml".toList → ∃ d, yamlDoc g = .ok d ∧ r = .ok (some (stem infile ++ ['_'] ++ tag ++ ".yaml".toList), .doc d))

theorem cmdOutput_spec (g : GCell) (infile tag outmode : List Char) (hlen : g.positions.length = g.numbers.length) (hk : ∀ n ∈ g.numbers, Known n)
    (ht : '.' ∉ tag) : PutOut g infile tag outmode (cmdOutput g infile tag outmode) := by
  obtain ⟨s, hs⟩ := vaspString_ok g hlen hk
  obtain ⟨d, hd, -⟩ := C49_round_trip g hk
  have hdot : '.' ∉ stem infile ++ ['_'] ++ tag := by
    rw [List.mem_append, List.mem_append]
    rintro ((h | h) | h)
    · exact stem_no_dot _ h
    · revert h; decide
    · exact ht h
  refine ⟨?_, ?_, ?_⟩
  · rintro rfl
    refine ⟨s, hs, ?_⟩
    have : dispatch [] (some "vasp".toList) = .ok .vasp := by decide +kernel
    unfold cmdOutput writeFile
    rw [if_pos rfl, this]
    simp only [bind, Except.bind, hs, pure, Except.pure]
  · rintro rfl
    refine ⟨s, hs, ?_⟩
    unfold cmdOutput
    rw [if_neg (by decide)]
    have hp : stem infile ++ ['_'] ++ tag ++ ['.'] ++ "vasp".toList = (stem infile ++ ['_'] ++ tag) ++ ".vasp".toList := by
      rw [List.append_assoc _ ['.']]; rfl
    simp only [hp, writeFile_dot_vasp _ hdot, hs, Except.map, bind, Except.bind, pure, Except.pure]
  · rintro rfl
    refine ⟨d, hd, ?_⟩
    unfold cmdOutput
    rw [if_neg (by decide)]
    have hp : stem infile ++ ['_'] ++ tag ++ ['.'] ++ "yaml".toList = (stem infile ++ ['_'] ++ tag) ++ ".yaml".toList := by
      rw [List.append_assoc _ ['.']]; rfl
    simp only [hp, writeFile_dot_yaml, hd, Except.map, bind, Except.bind, pure, Except.pure]

/-- **C79**, `supcell`: the output is the cell enlarged `a × b × c` times along its own axes, describing the same crystal. -/
theorem C79_supcell (e : Ext) (infile : List Char) (content : FileContent) (scale : V3 ℤ) (outmode : List Char) (c : GCell)
    (hr : readFile e.root content infile none = .ok c) (hk : ∀ n ∈ c.numbers, Known n)
    (hs : 0 < scale.1 ∧ 0 < scale.2.1 ∧ 0 < scale.2.2) (n : ℕ) (hn : n = scale.1 * scale.2.1 * scale.2.2) (hb : n < 100000) :
    ∃ g, g.lattice = ((scale.1 * c.lattice.1.1, scale.1 * c.lattice.1.2.1, scale.1 * c.lattice.1.2.2),
        (scale.2.1 * c.lattice.2.1.1, scale.2.1 * c.lattice.2.1.2.1, scale.2.1 * c.lattice.2.1.2.2),
        (scale.2.2 * c.lattice.2.2.1, scale.2.2 * c.lattice.2.2.2.1, scale.2.2 * c.lattice.2.2.2.2)) ∧
      CartCrystal g.lattice (g.positions.zip g.numbers) = CartCrystal c.lattice (c.positions.zip c.numbers) ∧
      g.numbers.length = c.numbers.length * n ∧
      PutOut g infile "SUPC".toList outmode (supcellCmd e infile content scale outmode) := by
  have hbuilt := readFile_built hr
  have hcl := hbuilt.length
  obtain ⟨g, g1, g2, g3, g4, -, -⟩ := C34_supercell c hbuilt.ne_nil hcl.symm ((scale.1, 0, 0), (0, scale.2.1, 0), (0, 0, scale.2.2))
    ⟨rfl, rfl, rfl, hs.1, hs.2.1, hs.2.2, le_refl _, le_refl _, le_refl _⟩ n hn hb
  have hgl : g.positions.length = g.numbers.length := by omega
  have hkg : ∀ m ∈ g.numbers, Known m := by
    intro m hm
    have hm' : m ∈ (g.positions.zip g.numbers).map Prod.snd := by rwa [List.map_snd_zip (by omega)]
    obtain ⟨s, hs, rfl⟩ := List.mem_map.1 hm'
    have : (cartesian g.lattice (s.1.1 + (0 : ℤ), s.1.2.1 + (0 : ℤ), s.1.2.2 + (0 : ℤ)), s.2) ∈ CartCrystal g.lattice (g.positions.zip g.numbers) :=
      ⟨s, hs, (0, 0, 0), rfl⟩
    rw [g2] at this
    obtain ⟨t, ht, k, hk'⟩ := this
    rw [(Prod.ext_iff.1 hk').2]
    exact hk _ (List.of_mem_zip ht).2
  refine ⟨g, ?_, g2, by rw [g4, hcl], ?_⟩
  · obtain ⟨x, hx, hx2, -⟩ := enlarge_spec c.lattice c.positions c.numbers hbuilt.ne_nil hcl.symm ((scale.1, 0, 0), (0, scale.2.1, 0), (0, 0, scale.2.2))
      ⟨rfl, rfl, rfl, hs.1, hs.2.1, hs.2.2, le_refl _, le_refl _, le_refl _⟩ n hn hb
    have hxg : x = g := by
      have : c.supercell ((scale.1, 0, 0), (0, scale.2.1, 0), (0, 0, scale.2.2)) = .ok x := hx
      rw [g1] at this
      injection this with this
      exact this.symm
    subst hxg
    have q1 := congrFun hx2 (1, 0, 0)
    have q2 := congrFun hx2 (0, 1, 0)
    have q3 := congrFun hx2 (0, 0, 1)
    simp only [cartesian, castM, castV, V3.map, Prod.mk.injEq, one_mul, zero_mul, add_zero, zero_add, Int.cast_zero] at q1 q2 q3
    ext <;> simp [q1, q2, q3]
  · have : supcellCmd e infile content scale outmode = cmdOutput g infile "SUPC".toList outmode := by
      unfold supcellCmd
      simp only [hr, g1, bind, Except.bind]
    rw [this]
    exact cmdOutput_spec g infile _ outmode hgl hkg (by decide)

/-- **C79**, `pcell`: the output is the crystal spglib's primitive standardisation answers with. -/
theorem C79_pcell (e : Ext) (infile : List Char) (content : FileContent) (outmode : List Char) (c : GCell) (L : M3 ℚ) (pos : List (V3 ℚ)) (nums : List ℤ)
    (hr : readFile e.root content infile none = .ok c) (hs : e.standardize (c.lattice, c.positions, c.numbers) = some (L, pos, nums))
    (hl : pos.length = nums.length) (hne : pos ≠ []) (hk : ∀ n ∈ nums, Known n) :
    ∃ g, g.lattice = L ∧ (g.positions.zip g.numbers).Perm (pos.zip nums) ∧ g.numbers.Perm nums ∧
      PutOut g infile "PRIMC".toList outmode (pcellCmd e infile content outmode) := by
  obtain ⟨d, h1, h2, h3, h4, -⟩ := (C78_refined e c _ _ (.inl ⟨rfl, rfl⟩)).2 L pos nums hs hl hne
  refine ⟨d, h2, h3, h4, ?_⟩
  have : pcellCmd e infile content outmode = cmdOutput d infile "PRIMC".toList outmode := by
    unfold pcellCmd
    simp only [hr, h1, bind, Except.bind]
  rw [this]
  refine cmdOutput_spec d infile _ outmode ?_ (fun n hn => hk n (h4.mem_iff.1 hn)) (by decide)
  have hd : Built d := by
    unfold GCell.getRefinedPcell at h1
    rw [hs] at h1
    exact ⟨_, _, _, h1⟩
  exact hd.length.symm

/-! ## concrete runs -/

/-- a cubic cell: Zn at the origin, B at distances 0.75, 1.5 (in the neighbouring image 0.3) -/
def exClear : FileContent :=
  .text "ZnB2\n1\n3 0 0\n0 3 0\n0 0 3\nB Zn\n3 1\ndirect\n0.25 0 0 B\n0.5 0 0 B\n0.9 0 0 B\n0 0 0 Zn\n".toList

/-- path and text, as strings -/
def showText : Option (Py (List Char × FileContent)) → Option (String × String)
  | some (.ok (p, .text s)) => some (String.ofList p, String.ofList s)
  | _ => none

set_option maxRecDepth 100000 in
/-- the two B atoms closer than 1 to Zn go (one of them through the cell boundary), the third stays -/
example : showText (atclearCmd (exExt fun _ => []) 10 "d/POSCAR.x".toList exClear "Zn" 1 "B" false) =
    some ("POSCAR_ACLR.vasp", "B1Zn1\n1\n  3.000000   0.000000   0.000000\n  0.000000   3.000000   0.000000\n  0.000000   0.000000   3.000000\nB Zn\n1 1\ndirect\n" ++
      "  0.500000   0.000000   0.000000 B\n  0.000000   0.000000   0.000000 Zn\n") := by decide +kernel

set_option maxRecDepth 100000 in
/-- with the same element as centre every such atom is in its own sphere: nothing is left of a pure cell, and the command fails -/
example : atclearCmd (exExt fun _ => []) 10 "POSCAR".toList exPoscar "B" 1 "B" false matches some (.error .valueError) := by decide +kernel

set_option maxRecDepth 100000 in
example : showText (perturbCmd (exExt fun _ => []) (fun v => |v.1| + |v.2.1| + |v.2.2|) [(0, 0, 0), (1, 0, 0), (0, -2, 0), (0, 0, 3)] "POSCAR".toList exPoscar (3/10)) =
    some ("POSCAR_PURB.vasp", "B3\n1\n  3.000000   0.000000   0.000000\n  0.000000   3.000000   0.000000\n  0.000000   0.000000   3.000000\nB\n3\ndirect\n" ++
      "  0.100000   0.000000   0.000000 B\n  0.250000  -0.100000   0.000000 B\n  0.500000   0.000000   0.600000 B\n") := by decide +kernel

/-- where the output goes, and its kind -/
def showOut : Py CmdOut → Option (Option String × Bool)
  | .ok (p, .text _) => some (p.map String.ofList, true)
  | .ok (p, .doc _) => some (p.map String.ofList, false)
  | .error _ => none

set_option maxRecDepth 100000 in
example : ["vasp", "yaml", "stdio"].map (fun o => showOut (supcellCmd (exExt fun _ => []) "a.yaml/POSCAR".toList (.doc ⟨none, some ((3, 0, 0), (0, 3, 0), (0, 0, 3)),
      some [(0, 0, 0)], some [5], some 1⟩) (2, 1, 3) o.toList)) =
    [some (some "POSCAR_SUPC.vasp", true), some (some "POSCAR_SUPC.yaml", false), some (none, true)] := by decide +kernel

set_option maxRecDepth 100000 in
example : ["vasp", "yaml", "stdio"].map (fun o => showOut (pcellCmd (exExt fun _ => []) "POSCAR".toList exPoscar o.toList)) =
    [some (some "POSCAR_PRIMC.vasp", true), some (some "POSCAR_PRIMC.yaml", false), some (none, true)] := by decide +kernel

set_option maxRecDepth 100000 in
/-- the hypotheses of `C78_shaped` for a standardisation that swaps the two atoms (and shifts the origin by half the axis) -/
example : ∃ (e : Ext) (c d : GCell), c.positions = [(0, 0, 0), (1/2, 0, 0)] ∧ c.numbers = [5, 30] ∧
    e.standardize (c.lattice, c.positions, [0, 1]) = some (c.lattice, [(0, 0, 0), (1/2, 0, 0)], [1, 0]) ∧
    c.getShapedCell e = .ok d ∧ d.numbers = [30, 5] :=
  ⟨{ exExt (fun _ => []) with standardize := fun t => some (t.1, t.2.1, t.2.2.reverse) }, ⟨((1, 0, 0), (0, 1, 0), (0, 0, 1)), [(0, 0, 0), (1/2, 0, 0)], [5, 30], [5, 30], 2⟩,
    ⟨((1, 0, 0), (0, 1, 0), (0, 0, 1)), [(0, 0, 0), (1/2, 0, 0)], [30, 5], [30, 5], 2⟩, rfl, rfl, rfl, by decide +kernel, rfl⟩

end Verif
