import Verif.Lemmas.Io
import Verif.Props.Cell
import Mathlib.Data.List.TakeWhile
import Mathlib.Analysis.SpecialFunctions.Pow.Real

/-! # C46–C51: POSCAR and YAML files -/

namespace Verif

instance : DecidableEq (V3 ℚ) := inferInstance

instance : DecidableEq (M3 ℚ) := inferInstance

open Spec (Known Elements SortedReal round64)

/-- a coordinate line of a POSCAR: three numbers with six decimals in columns of width ten, then the symbol -/
def coordLine (s : V3 ℚ × ℤ) : List Char :=
  fmt106 s.1.1 ++ [' '] ++ (fmt106 s.1.2.1 ++ [' '] ++ fmt106 s.1.2.2) ++ [' '] ++ (Spec.symbol s.2).toList

theorem vaspLines_spec (c : GCell) (zoom : ℤ) (direct : Bool) (hk : ∀ n ∈ c.numbers, Known n) :
    ∃ zs ss, Elements c.numbers zs ∧ SortedReal (c.positions.zip c.numbers) ss ∧
      vaspLines c zoom direct = .ok ([zs.flatMap fun z => (Spec.symbol z).toList ++ natStr (c.numbers.count z), intStr zoom,
        numberLine c.lattice.1, numberLine c.lattice.2.1, numberLine c.lattice.2.2,
        pyJoin [' '] (zs.map fun z => (Spec.symbol z).toList), pyJoin [' '] (zs.map fun z => natStr (c.numbers.count z)),
        (if direct then "direct".toList else "cartesian".toList)] ++
        ss.map coordLine) := by
  obtain ⟨zs, hz, ho⟩ := orderedAtoms_spec hk
  refine ⟨zs, _, hz, sortedReal_insertionSort _, ?_⟩
  unfold vaspLines
  rw [atomNames_ok hk]
  simp only [bind, Except.bind, ho]
  rw [zip_names]
  have e : ((c.positions.zip c.numbers).map fun s => (s.2, s.1, Spec.symbol s.2)).insertionSort
      (fun a b : ℤ × V3 ℚ × String => a.1 ≤ b.1) =
      ((c.positions.zip c.numbers).insertionSort fun a b => a.2 ≤ b.2).map fun s => (s.2, s.1, Spec.symbol s.2) := by
    exact (List.map_insertionSort (fun a b : V3 ℚ × ℤ => a.2 ≤ b.2) (fun a b : ℤ × V3 ℚ × String => a.1 ≤ b.1)
      (fun s => (s.2, s.1, Spec.symbol s.2)) _ (fun a _ b _ => Iff.rfl)).symm
  rw [e]
  simp only [pure, Except.pure, commentOf, List.flatMap_map, List.map_map, List.filter_map]
  rfl

/-- **C47.** Every POSCAR written for a cell of known elements consists of: a comment; the scale factor; the three lattice rows; a
species line listing the occurring real elements once, by increasing atomic number; a line with their multiplicities; the coordinate
type; and then, element by element in that order, one coordinate line per site of that element (in cell order) — none for
ghosts. -/
theorem C47_internal_consistency (c : GCell) (zoom : ℤ) (direct : Bool) (hlen : c.positions.length = c.numbers.length)
    (hk : ∀ n ∈ c.numbers, Known n) :
    ∃ zs lines, Elements c.numbers zs ∧ vaspString c zoom direct = .ok (lines.flatMap fun l => l ++ ['\n']) ∧
      lines = [zs.flatMap fun z => (Spec.symbol z).toList ++ natStr (c.numbers.count z), intStr zoom,
        numberLine c.lattice.1, numberLine c.lattice.2.1, numberLine c.lattice.2.2,
        pyJoin [' '] (zs.map fun z => (Spec.symbol z).toList), pyJoin [' '] (zs.map fun z => natStr (c.numbers.count z)),
        (if direct then "direct".toList else "cartesian".toList)] ++
        zs.flatMap (fun z => ((c.positions.zip c.numbers).filter fun s => s.2 = z).map coordLine) ∧
      ∀ z ∈ zs, (((c.positions.zip c.numbers).filter fun s => s.2 = z).map coordLine).length = c.numbers.count z := by
  obtain ⟨zs, ss, hz, hs, hl⟩ := vaspLines_spec c zoom direct hk
  have hnum : (c.positions.zip c.numbers).map (·.2) = c.numbers := List.map_snd_zip (by omega)
  have hb := SortedReal.blocks hs (by rw [hnum]; exact hz)
  refine ⟨zs, _, hz, ?_, rfl, ?_⟩
  · unfold vaspString
    rw [hl]
    simp only [bind, Except.bind, pure, Except.pure]
    congr 1
    rw [hb, List.map_flatMap]
    exact join_eq_flatMap _ (List.append_ne_nil_of_left_ne_nil (List.cons_ne_nil _ _) _)
  · intro z _
    rw [List.length_map]
    conv_rhs => rw [← hnum, List.count_eq_countP, List.countP_map, List.countP_eq_length_filter]
    rfl

/-- **C48.** `comment` concatenates symbol and multiplicity of each occurring real element by increasing number; it is empty iff all
sites are ghosts; unknown numbers raise `IndexError`. -/
theorem C48_comment (c : GCell) :
    ((∀ n ∈ c.numbers, Known n) → ∃ zs text, Elements c.numbers zs ∧ c.comment = .ok text ∧
      text = (zs.flatMap fun z => (Spec.symbol z).toList ++ natStr (c.numbers.count z)) ∧
      (text = [] ↔ ∀ n ∈ c.numbers, n = 0)) ∧
    ((∃ n ∈ c.numbers, ¬ Known n) → c.comment = .error .indexError) := by
  constructor
  · intro hk
    obtain ⟨zs, hz, ho⟩ := orderedAtoms_spec hk
    refine ⟨zs, _, hz, ?_, rfl, ?_⟩
    · unfold GCell.comment
      rw [atomNames_ok hk]
      simp only [bind, Except.bind, ho]
      simp only [pure, Except.pure, commentOf, List.flatMap_map]
    · rw [List.flatMap_eq_nil_iff]
      constructor
      · intro h n hn
        by_contra h0
        have := h n ((hz.2 n).2 ⟨hn, h0⟩)
        simp [natStr_ne] at this
      · intro h z hzm
        have := (hz.2 z).1 hzm
        exact absurd (h z this.1) this.2
  · rintro ⟨n, hn, hu⟩
    have : atomNames c.numbers = .error .indexError := by
      unfold atomNames
      revert hn
      induction c.numbers with
      | nil => intro hn; simp at hn
      | cons a l ih =>
        intro hn
        rw [List.mapM_cons]
        by_cases ha : Known a
        · have hl : n ∈ l := by
            rcases List.mem_cons.1 hn with rfl | h
            · exact absurd ha hu
            · exact h
          rw [toName_symbol ha, ih hl]; rfl
        · rw [((C01_number_domain a).2 ha).2]; rfl
    unfold GCell.comment
    rw [this]; rfl

example : (GCell.comment ⟨identM, [], [30, 0, 5, 5, 30, 5], [], 6⟩) = .ok "B3Zn2".toList := by decide +kernel

theorem filter_lines (lines : List (List Char)) (h : ∀ l ∈ lines, ∃ c ∈ l, isWs c = false) :
    (lines ++ [[]]).filter notBlank = lines := by
  rw [List.filter_append, List.filter_eq_self.2 (fun l hl => (notBlank_iff l).2 (h l hl))]
  simp [notBlank]

/-- parsing what was written, for any integer scale factor -/
theorem vasp_parse (c : GCell) (zoom : ℤ) (direct : Bool) (hlen : c.positions.length = c.numbers.length)
    (hk : ∀ n ∈ c.numbers, Known n) (hr : ∃ n ∈ c.numbers, n ≠ 0) :
    ∃ text ss, vaspString c zoom direct = .ok text ∧ SortedReal (c.positions.zip c.numbers) ss ∧
      vaspParse text = .ok ((zoom : ℚ), V3.map (V3.map (around 6)) c.lattice, ss.map (fun s => V3.map (around 6) s.1), ss.map (·.2)) := by
  obtain ⟨zs, ss, hz, hs, hl⟩ := vaspLines_spec c zoom direct hk
  have hnum : (c.positions.zip c.numbers).map (·.2) = c.numbers := List.map_snd_zip (by omega)
  have hb := SortedReal.blocks hs (by rw [hnum]; exact hz)
  have hzk : ∀ z ∈ zs, Known z := fun z hzm => hk z ((hz.2 z).1 hzm).1
  have hsk : ∀ s ∈ ss, Known s.2 := by
    intro s hsm
    rw [hb] at hsm
    obtain ⟨z, hzm, hsm⟩ := List.mem_flatMap.1 hsm
    rw [List.mem_filter] at hsm
    have : s.2 = z := by simpa using hsm.2
    rw [this]; exact hzk z hzm
  obtain ⟨n, hn, hn0⟩ := hr
  have hnz : n ∈ zs := (hz.2 n).2 ⟨hn, hn0⟩
  have hcoord : ∀ s, coordLine s = numberLine s.1 ++ [' '] ++ (Spec.symbol s.2).toList := by
    intro s; simp [coordLine, numberLine, pyJoin]
  set comment := zs.flatMap fun z => (Spec.symbol z).toList ++ natStr (c.numbers.count z) with hcomment
  set dirl : List Char := if direct then "direct".toList else "cartesian".toList with hdir
  set species := pyJoin [' '] (zs.map fun z => (Spec.symbol z).toList) with hspecies
  set counts := pyJoin [' '] (zs.map fun z => natStr (c.numbers.count z)) with hcounts
  -- no line contains a newline, no line is blank
  have wsnl : ∀ {l : List Char}, (∀ ch ∈ l, isWs ch = false) → '\n' ∉ l := by
    intro l h hm
    have := h _ hm
    simp [isWs] at this
  have hcnt : c.numbers.count n ≠ 0 := by
    rw [Ne, List.count_eq_zero]; exact fun h => h hn
  have c1 : '\n' ∉ comment := by
    apply wsnl
    intro ch hch
    obtain ⟨z, hzm, hch⟩ := List.mem_flatMap.1 hch
    rcases List.mem_append.1 hch with h | h
    · exact (symbol_text (hzk z hzm)).2 ch h
    · exact natStr_noWs _ ch h
  have c2 : ∃ ch ∈ comment, isWs ch = false := by
    obtain ⟨ch, hch⟩ := List.exists_mem_of_ne_nil _ (natStr_ne (c.numbers.count n))
    exact ⟨ch, List.mem_flatMap.2 ⟨n, hnz, List.mem_append.2 (Or.inr hch)⟩, natStr_noWs _ ch hch⟩
  have z1 : '\n' ∉ intStr zoom := wsnl (intStr_noWs zoom)
  have z2 : ∃ ch ∈ intStr zoom, isWs ch = false := by
    obtain ⟨ch, hch⟩ := List.exists_mem_of_ne_nil _ (intStr_ne zoom)
    exact ⟨ch, hch, intStr_noWs zoom ch hch⟩
  have s1 : '\n' ∉ species := by
    intro h
    rcases mem_pyJoin h with h | ⟨w, hw, h⟩
    · simp at h
    · obtain ⟨z, hzm, rfl⟩ := List.mem_map.1 hw
      exact wsnl (symbol_text (hzk z hzm)).2 h
  have s2 : ∃ ch ∈ species, isWs ch = false := by
    obtain ⟨ch, hch⟩ := List.exists_mem_of_ne_nil _ (symbol_text (hzk n hnz)).1
    exact ⟨ch, mem_pyJoin_of (List.mem_map.2 ⟨n, hnz, rfl⟩) hch, (symbol_text (hzk n hnz)).2 ch hch⟩
  have n1 : '\n' ∉ counts := by
    intro h
    rcases mem_pyJoin h with h | ⟨w, hw, h⟩
    · simp at h
    · obtain ⟨z, hzm, rfl⟩ := List.mem_map.1 hw
      exact wsnl (natStr_noWs _) h
  have n2 : ∃ ch ∈ counts, isWs ch = false := by
    obtain ⟨ch, hch⟩ := List.exists_mem_of_ne_nil _ (natStr_ne (c.numbers.count n))
    exact ⟨ch, mem_pyJoin_of (List.mem_map.2 ⟨n, hnz, rfl⟩) hch, natStr_noWs _ ch hch⟩
  have d1 : '\n' ∉ dirl := by rw [hdir]; cases direct <;> decide
  have d2 : ∃ ch ∈ dirl, isWs ch = false := by rw [hdir]; cases direct <;> decide
  have p1 : ∀ s ∈ ss, '\n' ∉ coordLine s := by
    intro s hsm h
    rw [hcoord, List.mem_append, List.mem_append] at h
    rcases h with (h | h) | h
    · exact numberLine_noNL _ h
    · simp at h
    · exact wsnl (symbol_text (hsk s hsm)).2 h
  have p2 : ∀ s ∈ ss, ∃ ch ∈ coordLine s, isWs ch = false := by
    intro s hsm
    obtain ⟨ch, h1, h2⟩ := numberLine_notBlank s.1
    exact ⟨ch, by rw [hcoord]; simp [h1], h2⟩
  set lines := [comment, intStr zoom, numberLine c.lattice.1, numberLine c.lattice.2.1, numberLine c.lattice.2.2,
    species, counts, dirl] ++ ss.map coordLine with hlines
  have hnl : ∀ l ∈ lines, '\n' ∉ l := by
    intro l hlm
    rw [hlines, List.mem_append] at hlm
    rcases hlm with h | h
    · simp only [List.mem_cons, List.not_mem_nil, or_false] at h
      rcases h with rfl | rfl | rfl | rfl | rfl | rfl | rfl | rfl
      · exact c1
      · exact z1
      · exact numberLine_noNL _
      · exact numberLine_noNL _
      · exact numberLine_noNL _
      · exact s1
      · exact n1
      · exact d1
    · obtain ⟨s, hsm, rfl⟩ := List.mem_map.1 h
      exact p1 s hsm
  have hnb : ∀ l ∈ lines, ∃ ch ∈ l, isWs ch = false := by
    intro l hlm
    rw [hlines, List.mem_append] at hlm
    rcases hlm with h | h
    · simp only [List.mem_cons, List.not_mem_nil, or_false] at h
      rcases h with rfl | rfl | rfl | rfl | rfl | rfl | rfl | rfl
      · exact c2
      · exact z2
      · exact numberLine_notBlank _
      · exact numberLine_notBlank _
      · exact numberLine_notBlank _
      · exact s2
      · exact n2
      · exact d2
    · obtain ⟨s, hsm, rfl⟩ := List.mem_map.1 h
      exact p2 s hsm
  refine ⟨pyJoin ['\n'] lines ++ ['\n'], ss, ?_, hs, ?_⟩
  · unfold vaspString
    rw [hl]; rfl
  · have hf : (splitNL (pyJoin ['\n'] lines ++ ['\n'])).filter notBlank = lines := by
      rw [splitNL_join lines (by simp [hlines]) hnl, filter_lines lines hnb]
    have a0 : lineAt lines 0 = .ok comment := rfl
    have a1 : lineAt lines 1 = .ok (intStr zoom) := rfl
    have a5 : lineAt lines 5 = .ok species := rfl
    have a6 : lineAt lines 6 = .ok counts := rfl
    have a2 : (lines.drop 2).take 3 = [numberLine c.lattice.1, numberLine c.lattice.2.1, numberLine c.lattice.2.2] := rfl
    have a8 : lines.drop 8 = ss.map coordLine := rfl
    have w5 : words species = zs.map fun z => (Spec.symbol z).toList := by
      apply words_join
      intro w hw
      obtain ⟨z, hzm, rfl⟩ := List.mem_map.1 hw
      exact ⟨(symbol_text (hzk z hzm)).2, (symbol_text (hzk z hzm)).1⟩
    have w6 : words counts = zs.map fun z => natStr (c.numbers.count z) := by
      apply words_join
      intro w hw
      obtain ⟨z, hzm, rfl⟩ := List.mem_map.1 hw
      exact ⟨natStr_noWs _, natStr_ne _⟩
    have m5 : (words species).mapM symbolZ = .ok zs := by
      rw [w5, List.mapM_map]
      have := mapM_ok (symbolZ ∘ fun z => (Spec.symbol z).toList) id zs
        (fun z hzm => by
          simp only [Function.comp, symbolZ, String.ofList_toList, ofSymbol_symbol (hzk z hzm)]; rfl)
      rw [List.map_id] at this
      exact this
    have m6 : (words counts).mapM parseInt = .ok (zs.map fun z => ((c.numbers.count z : ℕ) : ℤ)) := by
      rw [w6, List.mapM_map]
      exact mapM_ok _ _ zs (fun z _ => parseInt_natStr _)
    have m7 := expandNumbers_spec (fun z => c.numbers.count z) [] zs
    rw [List.nil_append, List.length_nil] at m7
    have m8 : ((ss.map coordLine).mapM fun l => row3 ((words l).take 3) : Py (List (V3 ℚ))) = .ok (ss.map fun s => V3.map (around 6) s.1) := by
      rw [List.mapM_map]
      refine mapM_ok _ _ ss (fun s hsm => ?_)
      rw [Function.comp_apply, hcoord, words_coordLine _ _ (symbol_text (hsk s hsm)).1 (symbol_text (hsk s hsm)).2]
      exact row3_fixed s.1
    have m2 : ([numberLine c.lattice.1, numberLine c.lattice.2.1, numberLine c.lattice.2.2].mapM fun l => row3 (words l) : Py (List (V3 ℚ))) =
        .ok [V3.map (around 6) c.lattice.1, V3.map (around 6) c.lattice.2.1, V3.map (around 6) c.lattice.2.2] := by
      simp only [List.mapM_cons, List.mapM_nil, words_numberLine, row3_fixed]
      rfl
    have hnums : (zs.flatMap fun z => List.replicate (c.numbers.count z) z) = ss.map (·.2) := by
      rw [hb, List.map_flatMap]
      apply List.flatMap_congr
      intro z _
      symm
      rw [List.eq_replicate_iff]
      constructor
      · rw [List.length_map]
        conv_rhs => rw [← hnum, List.count_eq_countP, List.countP_map, List.countP_eq_length_filter]
        rfl
      · intro y hy
        obtain ⟨s, hsm, rfl⟩ := List.mem_map.1 hy
        simpa using (List.mem_filter.1 hsm).2
    unfold vaspParse
    simp only [hf, a0, a1, a2, a5, a6, a8, m2, m5, m6, m7, m8, parseFloat_intStr, bind, Except.bind, pure, Except.pure, hnums]
    rfl

/-- reading what was written, for any integer scale factor -/
theorem vasp_round_trip (root : ℚ → ℚ) (c : GCell) (zoom : ℤ) (direct : Bool) (hlen : c.positions.length = c.numbers.length)
    (hk : ∀ n ∈ c.numbers, Known n) (hr : ∃ n ∈ c.numbers, n ≠ 0) :
    ∃ text ss, vaspString c zoom direct = .ok text ∧ SortedReal (c.positions.zip c.numbers) ss ∧
      vaspFromString root text = .ok (scaleLattice root (zoom : ℚ) (V3.map (V3.map round64) c.lattice),
        ss.map (fun s => V3.map round64 s.1), ss.map (·.2)) := by
  obtain ⟨text, ss, h1, h2, h3⟩ := vasp_parse c zoom direct hlen hk hr
  refine ⟨text, ss, h1, h2, ?_⟩
  unfold vaspFromString
  rw [h3]
  simp only [bind, Except.bind, pure, Except.pure, List.map_map]
  rfl

theorem scale_one (root : ℚ → ℚ) (L : M3 ℚ) : scaleLattice root 1 L = L := by
  unfold scaleLattice
  rw [if_neg (by norm_num)]
  simp [smulM, V3.map]

/-- **C46.** Reading the text written for a cell with at least one real atom gives back the lattice and positions rounded to six,
then four decimals, the sites without ghosts and stably sorted by atomic number; `get_cell` builds the cell of these sites. -/
theorem C46_round_trip (root : ℚ → ℚ) (c : GCell) (direct : Bool) (hlen : c.positions.length = c.numbers.length)
    (hk : ∀ n ∈ c.numbers, Known n) (hr : ∃ n ∈ c.numbers, n ≠ 0) :
    ∃ text ss c', vaspString c 1 direct = .ok text ∧ SortedReal (c.positions.zip c.numbers) ss ∧
      vaspFromString root text = .ok (V3.map (V3.map round64) c.lattice, ss.map (fun s => V3.map round64 s.1), ss.map (·.2)) ∧
      vaspReadCell root text = .ok c' ∧ c'.lattice = V3.map (V3.map round64) c.lattice ∧
      (c'.positions.zip c'.numbers).Perm (ss.map fun s => (V3.map round64 s.1, s.2)) := by
  obtain ⟨text, ss, h1, h2, h3⟩ := vasp_round_trip root c 1 direct hlen hk hr
  rw [Int.cast_one, scale_one] at h3
  have hne : ss ≠ [] := by
    obtain ⟨n, hn, hn0⟩ := hr
    have hnum : (c.positions.zip c.numbers).map (·.2) = c.numbers := List.map_snd_zip (by omega)
    rw [← hnum] at hn
    obtain ⟨s, hs, rfl⟩ := List.mem_map.1 hn
    have : s ∈ ss.filter (fun t => t.2 = s.2) := by
      rw [h2.stable _ hn0, List.mem_filter]; exact ⟨hs, by simp⟩
    exact List.ne_nil_of_mem (List.mem_filter.1 this).1
  obtain ⟨c', hc'⟩ := (C09_constructor_domain (V3.map (V3.map round64) c.lattice) (ss.map (fun s => V3.map round64 s.1))
    (ss.map (·.2))).1.2 ⟨by simpa using hne, by simp⟩
  obtain ⟨g1, g2, -⟩ := C09_sites_rearranged _ _ _ _ hc'
  refine ⟨text, ss, c', h1, h2, h3, ?_, g1, ?_⟩
  · unfold vaspReadCell
    rw [h3]; exact hc'
  · rw [← List.zip_map'] 
    exact g2

/-! ### a concrete cell for the hypotheses -/

/-- a cell with two boron atoms, one zinc atom and a ghost -/
def exIoCell : GCell :=
  ⟨((3, 0, 0), (0, 3, 0), (0, 0, 3)), [(0, 0, 0), (1/3, 1/3, 0), (1/2, 1/2, 1/2), (-1/4, 2/3, 0)], [30, 5, 0, 5], [30, 5, 0, 5], 4⟩

example : exIoCell.positions.length = exIoCell.numbers.length ∧ (∀ n ∈ exIoCell.numbers, Known n) ∧
    ∃ n ∈ exIoCell.numbers, n ≠ 0 := by
  refine ⟨rfl, ?_, 30, by decide, by decide⟩
  unfold Known
  decide

example : vaspString exIoCell 1 true = .ok ("B2Zn1\n1\n  3.000000   0.000000   0.000000\n  0.000000   3.000000   0.000000\n" ++
    "  0.000000   0.000000   3.000000\nB Zn\n2 1\ndirect\n  0.333333   0.333333   0.000000 B\n" ++
    " -0.250000   0.666667   0.000000 B\n  0.000000   0.000000   0.000000 Zn\n").toList := by decide +kernel

example : vaspFromString id ("B2Zn1\n1\n  3.000000   0.000000   0.000000\n  0.000000   3.000000   0.000000\n" ++
    "  0.000000   0.000000   3.000000\nB Zn\n2 1\ndirect\n  0.333333   0.333333   0.000000 B\n" ++
    " -0.250000   0.666667   0.000000 B\n  0.000000   0.000000   0.000000 Zn\n").toList =
    .ok (((3, 0, 0), (0, 3, 0), (0, 0, 3)), [(3333/10000, 3333/10000, 0), (-1/4, 6667/10000, 0), (0, 0, 0)], [5, 5, 30]) := by
  decide +kernel

/-! ### a cell of ghosts only cannot be read back -/

theorem isDig_false_of_ws {ch : Char} (hw : isWs ch = true) : isDig ch = false := by
  cases h : isDig ch with
  | false => rfl
  | true => rw [isWs_of_isDig h] at hw; cases hw

theorem parseDecimal_ws {t : List Char} {ch : Char} (hm : ch ∈ t) (hw : isWs ch = true) : parseDecimal t = none := by
  have hnd := isDig_false_of_ws hw
  have hsplit : t = t.takeWhile isDig ++ t.dropWhile isDig := List.takeWhile_append_dropWhile.symm
  have hin : ch ∈ t.dropWhile isDig := by
    rw [hsplit] at hm
    rcases List.mem_append.1 hm with h | h
    · rw [List.mem_takeWhile_imp h] at hnd; cases hnd
    · exact h
  unfold parseDecimal
  cases hd : t.dropWhile isDig with
  | nil => rw [hd] at hin; simp at hin
  | cons c fp =>
    rw [hd] at hin
    simp only
    rw [if_neg]
    rintro ⟨h1, h2, -⟩
    rcases List.mem_cons.1 hin with rfl | h
    · subst h1; simp [isWs] at hw
    · rw [List.all_eq_true] at h2
      rw [h2 ch h] at hnd; cases hnd

theorem parseDigits_ws {t : List Char} {ch : Char} (hm : ch ∈ t) (hw : isWs ch = true) : parseDigits t = none := by
  unfold parseDigits
  rw [if_neg]
  rintro ⟨-, h⟩
  have := List.all_eq_true.1 h ch hm
  rw [isDig_false_of_ws hw] at this; cases this

theorem parseSignedInt_ws {t : List Char} {ch : Char} (hm : ch ∈ t) (hw : isWs ch = true) : parseSignedInt t = none := by
  have hne : ∀ c, isWs c = false → ch ≠ c := by rintro c h rfl; rw [h] at hw; cases hw
  unfold parseSignedInt
  split
  · rw [parseDigits_ws ((List.mem_cons.1 hm).resolve_left (hne _ (by decide))) hw]; rfl
  · rw [parseDigits_ws ((List.mem_cons.1 hm).resolve_left (hne _ (by decide))) hw]; rfl
  · rw [parseDigits_ws hm hw]; rfl

theorem parseUnsigned_ws {t : List Char} {ch : Char} (hm : ch ∈ t) (hw : isWs ch = true) : parseUnsigned t = none := by
  unfold parseUnsigned
  cases hd : t.dropWhile (fun c => !isExp c) with
  | nil => exact parseDecimal_ws hm hw
  | cons c ex =>
    have hsplit : t = t.takeWhile (fun c => !isExp c) ++ c :: ex := by rw [← hd]; exact List.takeWhile_append_dropWhile.symm
    have hc : isExp c = true := by
      have := List.head_dropWhile_not (fun c => !isExp c) (by rw [hd]; simp : t.dropWhile (fun c => !isExp c) ≠ [])
      simpa [hd] using this
    rw [hsplit] at hm
    rcases List.mem_append.1 hm with h | h
    · simp [parseDecimal_ws h hw]
    · rcases List.mem_cons.1 h with rfl | h
      · simp only [isExp, Bool.or_eq_true, beq_iff_eq] at hc
        rcases hc with rfl | rfl <;> simp [isWs] at hw
      · simp only [parseSignedInt_ws h hw]
        split
        · rename_i h; cases h
        · rfl

theorem parseSigned_ws {t : List Char} {ch : Char} (hm : ch ∈ t) (hw : isWs ch = true) : parseSigned t = none := by
  have hne : ∀ c, isWs c = false → ch ≠ c := by rintro c h rfl; rw [h] at hw; cases hw
  unfold parseSigned
  split
  · rw [parseUnsigned_ws ((List.mem_cons.1 hm).resolve_left (hne _ (by decide))) hw]; rfl
  · exact parseUnsigned_ws ((List.mem_cons.1 hm).resolve_left (hne _ (by decide))) hw
  · exact parseUnsigned_ws hm hw

theorem dropUnderscores_mem {s t : List Char} {b : Bool} (h : dropUnderscores b s = some t) {ch : Char} (hm : ch ∈ s) (hne : ch ≠ '_') : ch ∈ t := by
  induction s generalizing b t with
  | nil => simp at hm
  | cons c s ih =>
    rw [dropUnderscores] at h
    split at h
    · rename_i hc
      have hm' : ch ∈ s := (List.mem_cons.1 hm).resolve_left (by rintro rfl; exact hne hc)
      split at h
      · exact ih h hm'
      · cases h
    · rw [Option.map_eq_some_iff] at h
      obtain ⟨u, hu, rfl⟩ := h
      rcases List.mem_cons.1 hm with rfl | hm'
      · simp
      · exact List.mem_cons_of_mem _ (ih hu hm')

theorem parseFloat_inner_ws {s t : List Char} {a : Char} (hs : pyStrip s = a :: t) {ch : Char} (hm : ch ∈ t) (hw : isWs ch = true) :
    parseFloat s = .error .valueError := by
  unfold parseFloat
  rw [hs]
  cases hd : dropUnderscores false (a :: t) with
  | none => rfl
  | some u =>
    have : ch ∈ u := dropUnderscores_mem hd (List.mem_cons_of_mem _ hm) (by rintro rfl; simp [isWs] at hw)
    rw [Option.bind_some, parseSigned_ws this hw]

theorem dropWhile_blanks (n : ℕ) (c : Char) (t : List Char) (hc : isWs c = false) :
    (List.replicate n ' ' ++ c :: t).dropWhile isWs = c :: t := by
  induction n with
  | zero => simp [hc]
  | succ n ih => rw [List.replicate_succ, List.cons_append, List.dropWhile_cons_of_pos rfl, ih]

theorem parseFloat_numberLine (p : V3 ℚ) : parseFloat (numberLine p) = .error .valueError := by
  obtain ⟨a, t, ha⟩ : ∃ a t, fixed6 p.1 = a :: t := List.exists_cons_of_ne_nil (fixed6_ne p.1)
  obtain ⟨b, u, hb⟩ : ∃ b u, (fixed6 p.2.2).reverse = b :: u := List.exists_cons_of_ne_nil (by simp [fixed6_ne])
  have hb' : fixed6 p.2.2 = u.reverse ++ [b] := by
    rw [← List.reverse_reverse (fixed6 p.2.2), hb, List.reverse_cons]
  have ha1 : isWs a = false := fixed6_noWs p.1 a (by rw [ha]; simp)
  have hb1 : isWs b = false := fixed6_noWs p.2.2 b (by rw [hb']; simp)
  have e : numberLine p = List.replicate (10 - (fixed6 p.1).length) ' ' ++ a :: (t ++ ' ' :: (fmt106 p.2.1 ++ ' ' ::
      (List.replicate (10 - (fixed6 p.2.2).length) ' ' ++ (u.reverse ++ [b])))) := by
    rw [← hb']
    simp only [numberLine, pyJoin, fmt106, padLeft, List.append_assoc, List.cons_append, List.nil_append]
    rw [show fixed6 p.1 ++ (' ' :: (List.replicate (10 - (fixed6 p.2.1).length) ' ' ++ (fixed6 p.2.1 ++
      (' ' :: (List.replicate (10 - (fixed6 p.2.2).length) ' ' ++ fixed6 p.2.2))))) = a :: (t ++ (' ' ::
      (List.replicate (10 - (fixed6 p.2.1).length) ' ' ++ (fixed6 p.2.1 ++ (' ' ::
      (List.replicate (10 - (fixed6 p.2.2).length) ' ' ++ fixed6 p.2.2)))))) from by rw [ha]; rfl]
  refine parseFloat_inner_ws (a := a) (t := t ++ ' ' :: (fmt106 p.2.1 ++ ' ' ::
      (List.replicate (10 - (fixed6 p.2.2).length) ' ' ++ (u.reverse ++ [b])))) ?_ (ch := ' ') (by simp) rfl
  unfold pyStrip
  rw [e, dropWhile_blanks _ _ _ ha1]
  have : (a :: (t ++ ' ' :: (fmt106 p.2.1 ++ ' ' :: (List.replicate (10 - (fixed6 p.2.2).length) ' ' ++ (u.reverse ++ [b]))))).reverse
      = b :: (a :: (t ++ ' ' :: (fmt106 p.2.1 ++ ' ' :: (List.replicate (10 - (fixed6 p.2.2).length) ' ' ++ u.reverse)))).reverse := by
    simp
  rw [this, List.dropWhile_cons_of_neg (by simp [hb1])]
  simp

/-- **C46**, the excluded case: the POSCAR written for a cell of ghosts only is never readable — the comment, species and counts
lines are empty and dropped on reading, and a lattice row is taken for the scale factor. -/
theorem C46_ghosts_only (root : ℚ → ℚ) (c : GCell) (zoom : ℤ) (direct : Bool) (h0 : ∀ n ∈ c.numbers, n = 0) :
    ∃ text, vaspString c zoom direct = .ok text ∧ vaspFromString root text = .error .valueError := by
  have hk : ∀ n ∈ c.numbers, Known n := fun n hn => by rw [h0 n hn]; left; omega
  obtain ⟨zs, ss, hz, hs, hl⟩ := vaspLines_spec c zoom direct hk
  have hzs : zs = [] := by
    rw [List.eq_nil_iff_forall_not_mem]
    intro z hzm
    have := (hz.2 z).1 hzm
    exact this.2 (h0 z this.1)
  have hss : ss = [] := by
    rw [List.eq_nil_iff_forall_not_mem]
    intro s hsm
    have hr := hs.real s hsm
    have : s ∈ (c.positions.zip c.numbers).filter (fun t => t.2 = s.2) := by
      rw [← hs.stable _ hr, List.mem_filter]; exact ⟨hsm, by simp⟩
    exact hr (h0 _ (List.of_mem_zip (List.mem_filter.1 this).1).2)
  subst hzs hss
  refine ⟨_, by unfold vaspString; rw [hl]; rfl, ?_⟩
  set dirl : List Char := if direct then "direct".toList else "cartesian".toList with hdir
  have d1 : '\n' ∉ dirl := by rw [hdir]; cases direct <;> decide
  have d2 : ∃ ch ∈ dirl, isWs ch = false := by rw [hdir]; cases direct <;> decide
  have z1 : '\n' ∉ intStr zoom := fun h => by
    have := intStr_noWs zoom _ h
    simp [isWs] at this
  have z2 : ∃ ch ∈ intStr zoom, isWs ch = false := by
    obtain ⟨ch, hch⟩ := List.exists_mem_of_ne_nil _ (intStr_ne zoom)
    exact ⟨ch, hch, intStr_noWs zoom ch hch⟩
  unfold vaspFromString vaspParse
  rw [splitNL_join _ (by simp)]
  · have hf : ([[], intStr zoom, numberLine c.lattice.1, numberLine c.lattice.2.1, numberLine c.lattice.2.2, [], [], dirl] ++ [[]]).filter
        notBlank = [intStr zoom, numberLine c.lattice.1, numberLine c.lattice.2.1, numberLine c.lattice.2.2, dirl] := by
      have e : notBlank [] = false := rfl
      simp [e, (notBlank_iff _).2 z2, (notBlank_iff _).2 d2, (notBlank_iff _).2 (numberLine_notBlank _)]
    have hf' : (([List.flatMap (fun z => (Spec.symbol z).toList ++ natStr (c.numbers.count z)) [], intStr zoom,
        numberLine c.lattice.1, numberLine c.lattice.2.1, numberLine c.lattice.2.2,
        pyJoin [' '] (List.map (fun z => (Spec.symbol z).toList) []), pyJoin [' '] (List.map (fun z => natStr (c.numbers.count z)) []),
        dirl] ++ List.map coordLine []) ++ [[]]).filter notBlank =
        [intStr zoom, numberLine c.lattice.1, numberLine c.lattice.2.1, numberLine c.lattice.2.2, dirl] := hf
    rw [hf']
    have a1 : lineAt [intStr zoom, numberLine c.lattice.1, numberLine c.lattice.2.1, numberLine c.lattice.2.2, dirl] 1 =
      .ok (numberLine c.lattice.1) := rfl
    have a0 : lineAt [intStr zoom, numberLine c.lattice.1, numberLine c.lattice.2.1, numberLine c.lattice.2.2, dirl] 0 =
      .ok (intStr zoom) := rfl
    simp only [a0, a1, bind, Except.bind, parseFloat_numberLine]
  · intro l hlm
    simp only [List.map_nil, List.flatMap_nil, pyJoin, List.append_nil, List.mem_cons, List.not_mem_nil, or_false] at hlm
    rcases hlm with rfl | rfl | rfl | rfl | rfl | rfl | rfl | rfl
    · simp
    · exact z1
    · exact numberLine_noNL _
    · exact numberLine_noNL _
    · exact numberLine_noNL _
    · simp
    · simp
    · exact d1

/-! ### YAML -/

/-- **C49.** The mapping written by `YamlOutput` for a cell of known elements, read by `YamlInput`, reproduces the numbers exactly
(ghosts included, same order) and lattice and positions rounded to six, then four decimals. -/
theorem C49_round_trip (c : GCell) (hk : ∀ n ∈ c.numbers, Known n) :
    ∃ d, yamlDoc c = .ok d ∧
      yamlFromDoc d = .ok (V3.map (V3.map round64) c.lattice, c.positions.map (V3.map round64), c.numbers) := by
  obtain ⟨zs, hz, ho⟩ := orderedAtoms_spec hk
  refine ⟨_, by unfold yamlDoc; rw [atomNames_ok hk]; simp only [bind, Except.bind, ho]; rfl, ?_⟩
  simp only [yamlFromDoc, need, bind, Except.bind, pure, Except.pure, mul_one, List.map_map]
  rfl

/-- **C49**, the cell read back: lattice rounded, sites those of the original with rounded coordinates. -/
theorem C49_read_cell (c : GCell) (hlen : c.positions.length = c.numbers.length) (hne : c.positions ≠ [])
    (hk : ∀ n ∈ c.numbers, Known n) :
    ∃ d c', yamlDoc c = .ok d ∧ yamlReadCell d = .ok c' ∧ c'.lattice = V3.map (V3.map round64) c.lattice ∧
      (c'.positions.zip c'.numbers).Perm ((c.positions.zip c.numbers).map fun s => (V3.map round64 s.1, s.2)) := by
  obtain ⟨d, h1, h2⟩ := C49_round_trip c hk
  obtain ⟨c', hc'⟩ := (C09_constructor_domain (V3.map (V3.map round64) c.lattice) (c.positions.map (V3.map round64)) c.numbers).1.2
    ⟨by simpa using hne, by simp [hlen]⟩
  obtain ⟨g1, g2, -⟩ := C09_sites_rearranged _ _ _ _ hc'
  refine ⟨d, c', h1, by unfold yamlReadCell; rw [h2]; exact hc', g1, ?_⟩
  rw [List.zip_map_left] at g2
  exact g2

/-- **C49**, reading: with scale factor `z` every lattice entry is multiplied by `z` and rounded to four decimals; a missing key is a
`KeyError`. -/
theorem C49_scale (cm : Option (List Char)) (L : M3 ℚ) (ps : List (V3 ℚ)) (ns : List ℤ) (z : ℚ) :
    yamlFromDoc ⟨cm, some L, some ps, some ns, some z⟩ = .ok (
      ((around 4 (z * L.1.1), around 4 (z * L.1.2.1), around 4 (z * L.1.2.2)),
       (around 4 (z * L.2.1.1), around 4 (z * L.2.1.2.1), around 4 (z * L.2.1.2.2)),
       (around 4 (z * L.2.2.1), around 4 (z * L.2.2.2.1), around 4 (z * L.2.2.2.2))), ps.map (V3.map (around 4)), ns) ∧
    ∀ d : YDoc, (yamlFromDoc d = .error .keyError ↔ d.lattice = none ∨ d.zoom = none ∨ d.positions = none ∨ d.numbers = none) := by
  constructor
  · simp only [yamlFromDoc, need, bind, Except.bind, pure, Except.pure, V3.map, mul_comm z]
  · rintro ⟨cm, l, p, n, z⟩
    cases l <;> cases z <;> cases p <;> cases n <;> simp [yamlFromDoc, need, bind, Except.bind, pure, Except.pure]

/-- **C49**, the older writer (`ababe.stru.io.YamlOutput`): no rounding on writing, and a scale factor that reading applies. -/
theorem C49_old_writer (c : GCell) (z : ℚ) (hk : ∀ n ∈ c.numbers, Known n) :
    ∃ d, yamlDocOld c z = .ok d ∧
      yamlFromDoc d = .ok (V3.map (V3.map fun x => around 4 (x * z)) c.lattice, c.positions.map (V3.map (around 4)), c.numbers) := by
  obtain ⟨zs, hz, ho⟩ := orderedAtoms_spec hk
  exact ⟨_, by unfold yamlDocOld; rw [atomNames_ok hk]; simp only [bind, Except.bind, ho]; rfl, rfl⟩

example : ∃ d, yamlDoc exIoCell = .ok d ∧ d.comment = some "B2Zn1".toList ∧ d.numbers = some [30, 5, 0, 5] ∧
    d.positions = some [(0, 0, 0), (333333/1000000, 333333/1000000, 0), (1/2, 1/2, 1/2), (-1/4, 666667/1000000, 0)] ∧
    yamlFromDoc d = .ok (((3, 0, 0), (0, 3, 0), (0, 0, 3)),
      [(0, 0, 0), (3333/10000, 3333/10000, 0), (1/2, 1/2, 1/2), (-1/4, 6667/10000, 0)], [30, 5, 0, 5]) :=
  ⟨⟨some "B2Zn1".toList, some ((3, 0, 0), (0, 3, 0), (0, 0, 3)), some [(0, 0, 0), (333333/1000000, 333333/1000000, 0), (1/2, 1/2, 1/2),
    (-1/4, 666667/1000000, 0)], some [30, 5, 0, 5], some 1⟩, by decide +kernel, rfl, rfl, rfl, by decide +kernel⟩

/-! ### the scale factor -/

theorem det_smul {α} [Field α] (s : α) (m : M3 α) : det (smulM s m) = s ^ 3 * det m := by
  simp only [det, smulM, V3.map]; ring

/-- **C50.** With exact real arithmetic: a non-negative factor multiplies every entry of the lattice; a negative factor `-V` on a
non-degenerate lattice multiplies every entry by one positive number such that the cell volume becomes exactly `V`. -/
theorem C50_scale_factor (zoom : ℝ) (L : M3 ℝ) :
    (0 ≤ zoom → Spec.Multiple zoom L (scaleLattice (fun x => x ^ ((1 : ℝ) / 3)) zoom L)) ∧
    (zoom < 0 → Spec.cellVolume L ≠ 0 →
      Spec.cellVolume (scaleLattice (fun x => x ^ ((1 : ℝ) / 3)) zoom L) = -zoom ∧
      ∃ s, 0 < s ∧ Spec.Multiple s L (scaleLattice (fun x => x ^ ((1 : ℝ) / 3)) zoom L)) := by
  constructor
  · intro h
    unfold scaleLattice
    rw [if_neg (not_lt.2 h)]
    rfl
  · intro h hv
    have hdet : Spec.cellVolume L = |det L| := rfl
    have hd : 0 < |det L| := lt_of_le_of_ne (abs_nonneg _) (by rw [← hdet]; exact hv.symm)
    have hpos : 0 < -zoom / |det L| := div_pos (by linarith) hd
    unfold scaleLattice
    rw [if_pos h]
    have hs : 0 < (-zoom / |det L|) ^ ((1 : ℝ) / 3) := Real.rpow_pos_of_pos hpos _
    have hcube : ((-zoom / |det L|) ^ ((1 : ℝ) / 3)) ^ 3 = -zoom / |det L| := by
      rw [← Real.rpow_natCast, ← Real.rpow_mul hpos.le]
      norm_num
    refine ⟨?_, _, hs, rfl⟩
    change |det (smulM _ L)| = _
    rw [det_smul, hcube, abs_mul, abs_of_pos hpos]
    field_simp

/-- **C50**, on text: a POSCAR with integer scale factor `zoom ≥ 0` is read with every (rounded) lattice entry multiplied by it, and
one with a negative factor as the same shape with volume `-zoom` as soon as the cube root is exact. -/
theorem C50_read (root : ℚ → ℚ) (c : GCell) (zoom : ℤ) (direct : Bool) (hlen : c.positions.length = c.numbers.length)
    (hk : ∀ n ∈ c.numbers, Known n) (hr : ∃ n ∈ c.numbers, n ≠ 0) :
    ∃ text lat ps ns, vaspString c zoom direct = .ok text ∧ vaspFromString root text = .ok (lat, ps, ns) ∧
      (0 ≤ zoom → Spec.Multiple (zoom : ℚ) (V3.map (V3.map round64) c.lattice) lat) ∧
      (zoom < 0 → det (V3.map (V3.map round64) c.lattice) ≠ 0 →
        (root (-(zoom : ℚ) / |det (V3.map (V3.map round64) c.lattice)|)) ^ 3 = -(zoom : ℚ) / |det (V3.map (V3.map round64) c.lattice)| →
        |det lat| = -(zoom : ℚ) ∧ ∃ s, Spec.Multiple s (V3.map (V3.map round64) c.lattice) lat) := by
  obtain ⟨text, ss, h1, -, h3⟩ := vasp_round_trip root c zoom direct hlen hk hr
  refine ⟨text, _, _, _, h1, h3, ?_, ?_⟩
  · intro h
    unfold scaleLattice
    rw [if_neg (not_lt.2 (by exact_mod_cast h))]
    rfl
  · intro h hd hroot
    have hz : (zoom : ℚ) < 0 := by exact_mod_cast h
    unfold scaleLattice
    rw [if_pos hz]
    refine ⟨?_, _, rfl⟩
    have hp : 0 < |det (V3.map (V3.map round64) c.lattice)| := abs_pos.2 hd
    rw [det_smul, hroot, abs_mul, abs_of_pos (div_pos (by linarith) hp)]
    field_simp

example : vaspFromString (fun _ => 2) "x\n-216\n3 0 0\n0 3 0\n0 0 3\n\nZn\n1\ndirect\n0.5 0.5 .5 Zn\n".toList =
    .ok (((6, 0, 0), (0, 6, 0), (0, 0, 6)), [(1/2, 1/2, 1/2)], [30]) := by decide +kernel

/-! ### format dispatch -/

theorem fnmatch_cons (c : Char) (p s : List Char) : fnmatch (c :: p) s = if c = '*' then s.tails.any (fnmatch p)
    else match s with
      | [] => false
      | x :: xs => x == c && fnmatch p xs := by
  conv_lhs => unfold fnmatch
  rfl

theorem fnmatch_literal (p s : List Char) (h : '*' ∉ p) : fnmatch p s = true ↔ s = p := by
  induction p generalizing s with
  | nil => simp [fnmatch]
  | cons c p ih =>
    have hc : c ≠ '*' := by rintro rfl; exact h (by simp)
    rw [fnmatch_cons, if_neg hc]
    cases s with
    | nil => simp
    | cons x xs => simp [ih xs (fun hm => h (by simp [hm]))]

theorem fnmatch_star (p s : List Char) : fnmatch ('*' :: p) s = true ↔ ∃ t, t <:+ s ∧ fnmatch p t = true := by
  rw [fnmatch_cons, if_pos rfl, List.any_eq_true]
  simp only [List.mem_tails]

theorem fnmatch_prefix (p s : List Char) (h : '*' ∉ p) : fnmatch (p ++ ['*']) s = true ↔ p <+: s := by
  induction p generalizing s with
  | nil =>
    rw [List.nil_append, fnmatch_star]
    simp only [List.nil_prefix, iff_true]
    exact ⟨[], List.nil_suffix, rfl⟩
  | cons c p ih =>
    have hc : c ≠ '*' := by rintro rfl; exact h (by simp)
    rw [List.cons_append, fnmatch_cons, if_neg hc]
    cases s with
    | nil => simp
    | cons x xs =>
      rw [List.cons_prefix_cons, ← ih xs (fun hm => h (by simp [hm]))]
      simp only [Bool.and_eq_true, beq_iff_eq]
      constructor <;> rintro ⟨h1, h2⟩ <;> exact ⟨h1.symm, h2⟩

theorem fnmatch_infix (p s : List Char) (h : '*' ∉ p) : fnmatch ('*' :: (p ++ ['*'])) s = true ↔ p <:+: s := by
  rw [fnmatch_star]
  simp only [fnmatch_prefix p _ h]
  rw [List.infix_iff_prefix_suffix]
  constructor
  · rintro ⟨t, h1, h2⟩; exact ⟨t, h2, h1⟩
  · rintro ⟨t, h1, h2⟩; exact ⟨t, h2, h1⟩

theorem fnmatch_suffix (p s : List Char) (h : '*' ∉ p) : fnmatch ('*' :: p) s = true ↔ p <:+ s := by
  rw [fnmatch_star]
  simp only [fnmatch_literal p _ h]
  constructor
  · rintro ⟨t, h1, rfl⟩; exact h1
  · intro h; exact ⟨p, h, rfl⟩

/-- the request is for YAML: the format says so, or the name contains `.yaml` (any case) -/
def WantsYaml (fname : List Char) (fmt : Option (List Char)) : Prop :=
  (∃ f, fmt = some f ∧ lower f = "yaml".toList) ∨ ".yaml".toList <:+: lower fname

/-- the request is for VASP: the format says so, or the name ends in `.vasp` (any case) or contains `POSCAR` -/
def WantsVasp (fname : List Char) (fmt : Option (List Char)) : Prop :=
  (∃ f, fmt = some f ∧ lower f = "vasp".toList) ∨ ".vasp".toList <:+ lower fname ∨ "POSCAR".toList <:+: fname

/-- **C51.** `write_file` and `from_file` choose YAML iff it is wanted, otherwise VASP iff that is wanted, and otherwise fail with
`UnboundLocalError`. -/
theorem C51_dispatch (fname : List Char) (fmt : Option (List Char)) :
    (dispatch fname fmt = .ok .yaml ↔ WantsYaml fname fmt) ∧
    (dispatch fname fmt = .ok .vasp ↔ ¬ WantsYaml fname fmt ∧ WantsVasp fname fmt) ∧
    (dispatch fname fmt = .error .unboundLocalError ↔ ¬ WantsYaml fname fmt ∧ ¬ WantsVasp fname fmt) := by
  have e1 : fnmatch "*.yaml*".toList (lower fname) = true ↔ ".yaml".toList <:+: lower fname :=
    fnmatch_infix ".yaml".toList _ (by decide)
  have e2 : fnmatch "*.vasp".toList (lower fname) = true ↔ ".vasp".toList <:+ lower fname :=
    fnmatch_suffix ".vasp".toList _ (by decide)
  have e3 : fnmatch "*POSCAR*".toList fname = true ↔ "POSCAR".toList <:+: fname :=
    fnmatch_infix "POSCAR".toList _ (by decide)
  have f1 : ∀ k : List Char, k ≠ [] → (fmtKey fmt = k ↔ ∃ f, fmt = some f ∧ lower f = k) := by
    intro k hk
    cases fmt with
    | none => simp [fmtKey, Ne.symm hk]
    | some f => simp [fmtKey]
  have hy : fmtKey fmt = "yaml".toList ∨ fnmatch "*.yaml*".toList (lower fname) = true ↔
      WantsYaml fname fmt := by
    rw [f1 _ (by decide), e1]; rfl
  have hv : fmtKey fmt = "vasp".toList ∨ fnmatch "*.vasp".toList (lower fname) = true ∨
      fnmatch "*POSCAR*".toList fname = true ↔ WantsVasp fname fmt := by
    rw [f1 _ (by decide), e2, e3]; rfl
  unfold dispatch
  by_cases h1 : WantsYaml fname fmt
  · rw [if_pos (hy.2 h1)]; simp [h1]
  · rw [if_neg (fun h => h1 (hy.1 h))]
    by_cases h2 : WantsVasp fname fmt
    · rw [if_pos (hv.2 h2)]; simp [h1, h2]
    · rw [if_neg (fun h => h2 (hv.1 h))]; simp [h1, h2]

/-- **C51**, explicit format. Missing from the full claim: `fmt='vasp'` with a name containing `.yaml` (see
`C51_explicit_false`). -/
theorem C51_explicit_partial (fname f : List Char) :
    (lower f = "yaml".toList → dispatch fname (some f) = .ok .yaml) ∧
    (lower f = "vasp".toList → ¬ ".yaml".toList <:+: lower fname → dispatch fname (some f) = .ok .vasp) := by
  obtain ⟨h1, h2, -⟩ := C51_dispatch fname (some f)
  refine ⟨fun h => h1.2 (Or.inl ⟨f, rfl, h⟩), fun h hn => h2.2 ⟨?_, Or.inl ⟨f, rfl, h⟩⟩⟩
  rintro (⟨g, hg, hl⟩ | h')
  · injection hg with hg
    subst hg
    rw [h] at hl
    revert hl; decide
  · exact hn h'

/-- an explicit `fmt='vasp'` is ignored when the name contains `.yaml` -/
theorem C51_explicit_false : ¬ ∀ fname f : List Char, lower f = "vasp".toList → dispatch fname (some f) = .ok .vasp := by
  intro h
  have := h "a.yaml.txt".toList "vasp".toList (by decide)
  revert this; decide +kernel

/-- a file written under a name and read under the same name (and format argument) is read as what was written, whatever format
was chosen: the cell read has the rounded lattice, and as sites the rounded ones (only the real ones for VASP) -/
theorem C51_write_read (root : ℚ → ℚ) (c : GCell) (fname : List Char) (fmt : Option (List Char))
    (hw : WantsYaml fname fmt ∨ WantsVasp fname fmt) (hlen : c.positions.length = c.numbers.length)
    (hk : ∀ n ∈ c.numbers, Known n) (hr : ∃ n ∈ c.numbers, n ≠ 0) :
    ∃ file c', writeFile c fname fmt = .ok file ∧ readFile root file fname fmt = .ok c' ∧
      c'.lattice = V3.map (V3.map round64) c.lattice ∧
      ((c'.positions.zip c'.numbers).filter fun s => s.2 ≠ 0).Perm
        (((c.positions.zip c.numbers).filter fun s => s.2 ≠ 0).map fun s => (V3.map round64 s.1, s.2)) := by
  obtain ⟨h1, h2, -⟩ := C51_dispatch fname fmt
  have fm : ∀ l : List (V3 ℚ × ℤ), (l.map fun s => (V3.map round64 s.1, s.2)).filter (fun s => s.2 ≠ 0) =
      (l.filter fun s => s.2 ≠ 0).map fun s => (V3.map round64 s.1, s.2) := by
    intro l; rw [List.filter_map]; rfl
  by_cases hy : WantsYaml fname fmt
  · have hne : c.positions ≠ [] := by
      obtain ⟨n, hn, -⟩ := hr
      have := List.length_pos_of_mem hn
      rintro h; rw [h] at hlen; simp at hlen; omega
    obtain ⟨d, c', g1, g2, g3, g4⟩ := C49_read_cell c hlen hne hk
    refine ⟨.doc d, c', ?_, ?_, g3, ?_⟩
    · simp only [writeFile, h1.2 hy, bind, Except.bind, g1]; rfl
    · simp only [readFile, h1.2 hy, bind, Except.bind, g2]
    · rw [← fm]; exact g4.filter _
  · have hv := hw.resolve_left hy
    obtain ⟨text, ss, c', g1, g2, g3, g4, g5, g6⟩ := C46_round_trip root c true hlen hk hr
    refine ⟨.text text, c', ?_, ?_, g5, ?_⟩
    · simp only [writeFile, h2.2 ⟨hy, hv⟩, bind, Except.bind, g1]; rfl
    · simp only [readFile, h2.2 ⟨hy, hv⟩, bind, Except.bind, g4]
    · have hp := g6.filter (fun s => s.2 ≠ 0)
      rw [fm] at hp
      refine hp.trans (List.Perm.map _ ?_)
      rw [List.filter_eq_self.2 (fun s hs => by simpa using g2.real s hs)]
      rw [List.perm_iff_count]
      intro s
      by_cases h0 : s.2 = 0
      · rw [List.count_eq_zero_of_not_mem (fun h => g2.real s h h0), List.count_eq_zero_of_not_mem]
        intro h
        exact absurd h0 (by simpa using (List.mem_filter.1 h).2)
      · have := congrArg (List.count s) (g2.stable s.2 h0)
        rw [List.count_filter (by simp), List.count_filter (by simp)] at this
        rw [this, List.count_filter (by simpa using h0)]

example : dispatch "out/POSCAR_12".toList none = .ok .vasp ∧ dispatch "A.Yaml2".toList (some "VASP".toList) = .ok .yaml ∧
    dispatch "x.VASP".toList none = .ok .vasp ∧ dispatch "poscar".toList none = .error .unboundLocalError := by decide +kernel

end Verif
