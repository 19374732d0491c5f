import Verif.Props.Io
import Verif.Props.Numerals
import Verif.Props.Cell
import Verif.Lemmas.Lazy

/-! # C98: which texts are read as POSCAR files -/

namespace Verif

open Spec

/-- the lines that are not blank -/
def textLines (content : List Char) : List (List Char) := (splitNL content).filter notBlank

/-- three words that are numbers -/
def NumberRow (ws : List (List Char)) (v : V3 ℚ) : Prop :=
  ∃ a b c, ws = [a, b, c] ∧ FloatText a v.1 ∧ FloatText b v.2.1 ∧ FloatText c v.2.2

/-- What the lines of a POSCAR file say: the second line is the scale factor, the next three are the lattice vectors, the sixth the element symbols,
the seventh the numbers of atoms, of which there may not be more than symbols; from the ninth line on every line starts with three coordinates. The first and the
eighth line say nothing. -/
structure PoscarText (lines : List (List Char)) (scale : ℚ) (lattice : M3 ℚ) (species counts : List ℤ) (sites : List (V3 ℚ)) : Prop where
  scaleLine : ∃ l, lines[1]? = some l ∧ FloatText l scale
  rowA : ∃ l, lines[2]? = some l ∧ NumberRow (words l) lattice.1
  rowB : ∃ l, lines[3]? = some l ∧ NumberRow (words l) lattice.2.1
  rowC : ∃ l, lines[4]? = some l ∧ NumberRow (words l) lattice.2.2
  symbolLine : ∃ l, lines[5]? = some l ∧ List.Forall₂ (fun w z => ∃ sp, Specie.ofSymbol (String.ofList w) = .ok sp ∧ sp.Z = z) (words l) species
  countLine : ∃ l, lines[6]? = some l ∧ List.Forall₂ IntText (words l) counts
  enough : counts.length ≤ species.length
  siteLines : List.Forall₂ (fun l p => NumberRow ((words l).take 3) p) (lines.drop 8) sites

/-- the atoms the file declares: every element as often as its number says, negative numbers meaning none -/
def declared (species counts : List ℤ) : List ℤ := (species.zip counts).flatMap fun sk => List.replicate sk.2.toNat sk.1

theorem mapM_eq_ok_iff {α β} (f : α → Py β) (R : α → β → Prop) (hR : ∀ a b, f a = .ok b ↔ R a b) : ∀ (l : List α) (bs : List β),
    l.mapM f = .ok bs ↔ List.Forall₂ R l bs
  | [], bs => by
    rw [List.mapM_nil]
    constructor
    · intro h; obtain rfl := Except.ok.inj h; exact .nil
    · intro h; cases h; rfl
  | a :: l, bs => by
    rw [List.mapM_cons]
    constructor
    · intro h
      obtain ⟨b, h1, h⟩ := bind_ok h
      obtain ⟨bs', h2, h⟩ := bind_ok h
      obtain rfl := Except.ok.inj h
      exact .cons ((hR a b).1 h1) ((mapM_eq_ok_iff f R hR l bs').1 h2)
    · intro h
      cases h with
      | cons h1 h2 =>
        rw [(hR _ _).2 h1, (mapM_eq_ok_iff f R hR l _).2 h2]; rfl

theorem row3_iff (ws : List (List Char)) (v : V3 ℚ) : row3 ws = .ok v ↔ NumberRow ws v := by
  unfold row3
  constructor
  · intro h
    obtain ⟨xs, h1, h2⟩ := bind_ok h
    rw [mapM_eq_ok_iff parseFloat FloatText (fun a => (C99_float a).1)] at h1
    split at h2
    · obtain rfl := Except.ok.inj h2
      cases h1 with
      | cons p1 h1 =>
        cases h1 with
        | cons p2 h1 =>
          cases h1 with
          | cons p3 h1 =>
            cases h1
            exact ⟨_, _, _, rfl, p1, p2, p3⟩
    · cases h2
  · rintro ⟨a, b, c, rfl, h1, h2, h3⟩
    have : [a, b, c].mapM parseFloat = .ok [v.1, v.2.1, v.2.2] :=
      (mapM_eq_ok_iff parseFloat FloatText (fun a => (C99_float a).1) _ _).2 (.cons h1 (.cons h2 (.cons h3 .nil)))
    rw [this]; rfl

theorem symbolZ_iff (w : List Char) (z : ℤ) : symbolZ w = .ok z ↔ ∃ sp, Specie.ofSymbol (String.ofList w) = .ok sp ∧ sp.Z = z := by
  unfold symbolZ
  constructor
  · intro h
    obtain ⟨sp, h1, h2⟩ := bind_ok h
    exact ⟨sp, h1, Except.ok.inj h2⟩
  · rintro ⟨sp, h1, h2⟩
    rw [h1]
    simp only [bind, Except.bind, h2]; rfl

theorem expandNumbers_iff (nsymbols : List ℤ) : ∀ (counts : List ℤ) (i : ℕ) (out : List ℤ),
    expandNumbers nsymbols i counts = .ok out ↔ (counts ≠ [] → i + counts.length ≤ nsymbols.length) ∧ out = declared (nsymbols.drop i) counts
  | [], i, out => by
    rw [expandNumbers]
    simp [declared, eq_comm]
  | s :: ss, i, out => by
    rw [expandNumbers]
    constructor
    · intro h
      obtain ⟨z, h1, h⟩ := bind_ok h
      obtain ⟨rest, h2, h⟩ := bind_ok h
      obtain rfl := Except.ok.inj h
      split at h1
      · rename_i z' hz
        obtain rfl := Except.ok.inj h1
        obtain ⟨h3, rfl⟩ := (expandNumbers_iff nsymbols ss (i + 1) rest).1 h2
        have hlt := (List.getElem?_eq_some_iff.1 hz).1
        refine ⟨fun _ => ?_, ?_⟩
        · by_cases hss : ss = []
          · subst hss; simpa using hlt
          · have := h3 hss
            simp only [List.length_cons]; omega
        · rw [List.drop_eq_getElem_cons hlt, (List.getElem?_eq_some_iff.1 hz).2]
          rfl
      · cases h1
    · rintro ⟨h1, rfl⟩
      have h1 := h1 (by simp)
      simp only [List.length_cons] at h1
      have hlt : i < nsymbols.length := by omega
      have hz : nsymbols[i]? = some nsymbols[i] := List.getElem?_eq_getElem hlt
      rw [hz]
      simp only [bind, Except.bind]
      rw [(expandNumbers_iff nsymbols ss (i + 1) (declared (nsymbols.drop (i + 1)) ss)).2 ⟨fun _ => by omega, rfl⟩]
      rw [List.drop_eq_getElem_cons hlt]
      rfl

theorem lineAt_iff (lines : List (List Char)) (i : ℕ) (l : List Char) : lineAt lines i = .ok l ↔ lines[i]? = some l := by
  unfold lineAt
  cases h : lines[i]? with
  | none => simp
  | some x => simp

theorem take3_iff {lines : List (List Char)} {a b c : V3 ℚ} :
    ((lines.drop 2).take 3).mapM (fun l => row3 (words l)) = .ok [a, b, c] ↔
      (∃ l, lines[2]? = some l ∧ NumberRow (words l) a) ∧ (∃ l, lines[3]? = some l ∧ NumberRow (words l) b) ∧
      (∃ l, lines[4]? = some l ∧ NumberRow (words l) c) := by
  rw [mapM_eq_ok_iff _ (fun l v => NumberRow (words l) v) (fun l v => row3_iff (words l) v)]
  have g : ∀ i, lines[2 + i]? = (lines.drop 2)[i]? := fun i => by rw [List.getElem?_drop]
  rw [show (2 : ℕ) = 2 + 0 from rfl, show (3 : ℕ) = 2 + 1 from rfl, show (4 : ℕ) = 2 + 2 from rfl, g, g, g]
  match lines.drop (2 + 0) with
  | [] => simp
  | [x] => simp
  | [x, y] => simp
  | x :: y :: z :: rest => simp

/-- **C98, the numbers read.** The reader takes from a text exactly what `PoscarText` says, and fails on all other texts. -/
theorem C98_parse (content : List Char) (scale : ℚ) (lattice : M3 ℚ) (sites : List (V3 ℚ)) (numbers : List ℤ) :
    vaspParse content = .ok (scale, lattice, sites, numbers) ↔
      ∃ species counts, PoscarText (textLines content) scale lattice species counts sites ∧ numbers = declared species counts := by
  constructor
  · intro h
    unfold vaspParse at h
    simp only at h
    obtain ⟨l0, h0, h⟩ := bind_ok h
    obtain ⟨l1, h1, h⟩ := bind_ok h
    obtain ⟨zoom, h2, h⟩ := bind_ok h
    obtain ⟨rows, h3, h⟩ := bind_ok h
    obtain ⟨lat, h4, h⟩ := bind_ok h
    obtain ⟨l5, h5, h⟩ := bind_ok h
    obtain ⟨ns, h6, h⟩ := bind_ok h
    obtain ⟨l6, h7, h⟩ := bind_ok h
    obtain ⟨na, h8, h⟩ := bind_ok h
    obtain ⟨nums, h9, h⟩ := bind_ok h
    obtain ⟨pos, h10, h⟩ := bind_ok h
    obtain ⟨rfl, rfl, rfl, rfl⟩ : zoom = scale ∧ lat = lattice ∧ pos = sites ∧ nums = numbers := by
      have := Except.ok.inj h
      simpa using this
    split at h4
    · rename_i a b c
      obtain rfl := Except.ok.inj h4
      obtain ⟨r1, r2, r3⟩ := take3_iff.1 h3
      rw [expandNumbers_iff] at h9
      refine ⟨ns, na, ⟨⟨l1, (lineAt_iff _ _ _).1 h1, ((C99_float _).1 _).1 h2⟩, r1, r2, r3, ⟨l5, (lineAt_iff _ _ _).1 h5, ?_⟩, ⟨l6, (lineAt_iff _ _ _).1 h7, ?_⟩, ?_, ?_⟩, ?_⟩
      · exact (mapM_eq_ok_iff _ _ symbolZ_iff _ _).1 h6
      · exact (mapM_eq_ok_iff _ IntText (fun a => (C99_int a).1) _ _).1 h8
      · by_cases hna : na = []
        · subst hna; simp
        · simpa using h9.1 hna
      · exact (mapM_eq_ok_iff _ (fun l p => NumberRow ((words l).take 3) p) (fun l v => row3_iff _ v) _ _).1 h10
      · simpa using h9.2
    · cases h4
  · rintro ⟨species, counts, ⟨⟨l1, h1, h2⟩, r1, r2, r3, ⟨l5, h5, h6⟩, ⟨l6, h7, h8⟩, he, hs⟩, rfl⟩
    have h0 : ∃ l0, (textLines content)[0]? = some l0 := by
      have := (List.getElem?_eq_some_iff.1 h1).1
      exact ⟨_, List.getElem?_eq_getElem (show 0 < _ by omega)⟩
    obtain ⟨l0, h0⟩ := h0
    unfold vaspParse
    simp only [show (splitNL content).filter notBlank = textLines content from rfl]
    rw [(lineAt_iff _ _ _).2 h0, (lineAt_iff _ _ _).2 h1]
    simp only [bind, Except.bind, ((C99_float _).1 _).2 h2]
    rw [take3_iff.2 ⟨r1, r2, r3⟩]
    simp only [(lineAt_iff _ _ _).2 h5, (lineAt_iff _ _ _).2 h7]
    rw [(mapM_eq_ok_iff _ _ symbolZ_iff _ _).2 h6]
    simp only
    rw [(mapM_eq_ok_iff _ IntText (fun a => (C99_int a).1) _ _).2 h8]
    simp only
    rw [(expandNumbers_iff species counts 0 (declared species counts)).2 ⟨fun _ => by simpa using he, by simp⟩]
    simp only
    rw [(mapM_eq_ok_iff _ (fun l p => NumberRow ((words l).take 3) p) (fun l v => row3_iff _ v) _ _).2 hs]
    rfl

/-- **C98, acceptance.** A text gives a cell exactly if it is a `PoscarText` with at least one site and no more sites than atoms declared. Fewer sites than
declared atoms are accepted: the surplus atoms, the last ones declared, are dropped. -/
theorem C98_accepts (root : ℚ → ℚ) (content : List Char) :
    (∃ c, vaspReadCell root content = .ok c) ↔ ∃ scale lattice species counts sites, PoscarText (textLines content) scale lattice species counts sites ∧
      sites ≠ [] ∧ sites.length ≤ (declared species counts).length := by
  constructor
  · rintro ⟨c, h⟩
    obtain ⟨⟨lat, pos, nums⟩, h1, h2⟩ := bind_ok h
    obtain ⟨⟨zoom, lattice, positions, numbers⟩, h3, h4⟩ := bind_ok h1
    obtain ⟨species, counts, h5, rfl⟩ := (C98_parse _ _ _ _ _).1 h3
    have := Except.ok.inj h4
    simp only [Prod.mk.injEq] at this
    obtain ⟨rfl, rfl, rfl⟩ := this
    obtain ⟨h6, h7⟩ := (C09_constructor_domain _ _ _).1.1 ⟨c, h2⟩
    exact ⟨zoom, lattice, species, counts, positions, h5, by simpa using h6, by simpa using h7⟩
  · rintro ⟨scale, lattice, species, counts, sites, h1, h2, h3⟩
    have h4 := (C98_parse content scale lattice sites (declared species counts)).2 ⟨species, counts, h1, rfl⟩
    obtain ⟨c, hc⟩ := (C09_constructor_domain (scaleLattice root scale (V3.map (V3.map (around 4)) lattice)) (sites.map (V3.map (around 4)))
      (declared species counts)).1.2 ⟨by simpa using h2, by simpa using h3⟩
    refine ⟨c, ?_⟩
    unfold vaspReadCell vaspFromString
    rw [h4]
    exact hc

/-- **C98, the sites.** The cell read has exactly the sites of the file, rounded to four decimals, each with the element declared at its position in the file. -/
theorem C98_sites {root : ℚ → ℚ} {content : List Char} {c : GCell} (h : vaspReadCell root content = .ok c) :
    ∃ scale lattice species counts sites, PoscarText (textLines content) scale lattice species counts sites ∧
      (c.positions.zip c.numbers).Perm ((sites.map (V3.map (around 4))).zip (declared species counts)) ∧
      c.lattice = scaleLattice root scale (V3.map (V3.map (around 4)) lattice) := by
  obtain ⟨⟨lat, pos, nums⟩, h1, h2⟩ := bind_ok h
  obtain ⟨⟨zoom, lattice, positions, numbers⟩, h3, h4⟩ := bind_ok h1
  obtain ⟨species, counts, h5, rfl⟩ := (C98_parse _ _ _ _ _).1 h3
  have := Except.ok.inj h4
  simp only [Prod.mk.injEq] at this
  obtain ⟨rfl, rfl, rfl⟩ := this
  obtain ⟨k1, k2, -⟩ := C09_sites_rearranged _ _ _ _ h2
  exact ⟨zoom, lattice, species, counts, positions, h5, k2, k1⟩

/-- **C98, what is not looked at.** The first line (the comment) and the eighth (`direct` or `cartesian`) can be replaced by any other non-blank lines. -/
theorem C98_ignored (root : ℚ → ℚ) (content content' : List Char)
    (h : ∀ i, i ≠ 0 → i ≠ 7 → (textLines content)[i]? = (textLines content')[i]?) (c : GCell) :
    vaspReadCell root content = .ok c ↔ vaspReadCell root content' = .ok c := by
  have hp : ∀ scale lattice sites numbers, vaspParse content = .ok (scale, lattice, sites, numbers) ↔ vaspParse content' = .ok (scale, lattice, sites, numbers) := by
    intro scale lattice sites numbers
    rw [C98_parse, C98_parse]
    have hd : (textLines content).drop 8 = (textLines content').drop 8 := by
      apply List.ext_getElem?
      intro i
      rw [List.getElem?_drop, List.getElem?_drop]
      exact h _ (by omega) (by omega)
    have hc : ∀ species counts, PoscarText (textLines content) scale lattice species counts sites ↔ PoscarText (textLines content') scale lattice species counts sites := by
      intro species counts
      constructor
      · rintro ⟨h1, h2, h3, h4, h5, h6, h7, h8⟩
        rw [h _ (by decide) (by decide)] at h1 h2 h3 h4 h5 h6
        rw [hd] at h8
        exact ⟨h1, h2, h3, h4, h5, h6, h7, h8⟩
      · rintro ⟨h1, h2, h3, h4, h5, h6, h7, h8⟩
        rw [← h _ (by decide) (by decide)] at h1 h2 h3 h4 h5 h6
        rw [← hd] at h8
        exact ⟨h1, h2, h3, h4, h5, h6, h7, h8⟩
    simp only [hc]
  unfold vaspReadCell vaspFromString
  cases h1 : vaspParse content with
  | ok x =>
    rw [(hp x.1 x.2.1 x.2.2.1 x.2.2.2).1 h1]
  | error er =>
    cases h2 : vaspParse content' with
    | ok x => rw [(hp x.1 x.2.1 x.2.2.1 x.2.2.2).2 h2] at h1; cases h1
    | error er' => simp [bind, Except.bind]

/-- **C98, short texts.** A text of fewer than nine non-blank lines is rejected; one of fewer than two, or one whose scale factor and lattice can be read but which
ends before the numbers of atoms, with an `IndexError`. -/
theorem C98_short (root : ℚ → ℚ) (content : List Char) (h : (textLines content).length < 9) :
    (∀ c, vaspReadCell root content ≠ .ok c) ∧ ((textLines content).length < 2 → vaspReadCell root content = .error .indexError) ∧
    (∀ zoom l, (textLines content).length = 5 → (textLines content)[1]? = some l → FloatText l zoom →
      (∀ i l, 2 ≤ i → (textLines content)[i]? = some l → ∃ v, NumberRow (words l) v) → vaspReadCell root content = .error .indexError) := by
  refine ⟨fun c hc => ?_, fun h2 => ?_, fun zoom l h5 hl hz hrows => ?_⟩
  · obtain ⟨_, _, _, _, sites, h1, h2, _⟩ := (C98_accepts root content).1 ⟨c, hc⟩
    have := h1.siteLines.length_eq
    rw [List.length_drop] at this
    exact h2 (List.eq_nil_of_length_eq_zero (by omega))
  · have : vaspParse content = .error .indexError := by
      unfold vaspParse
      simp only [show (splitNL content).filter notBlank = textLines content from rfl]
      have h1 : (textLines content)[1]? = none := List.getElem?_eq_none (by omega)
      have e1 : lineAt (textLines content) 1 = .error .indexError := by unfold lineAt; rw [h1]
      rw [e1]
      unfold lineAt
      cases (textLines content)[0]? <;> rfl
    unfold vaspReadCell vaspFromString
    rw [this]; rfl
  · have get : ∀ i, i < 5 → ∃ l, (textLines content)[i]? = some l := fun i hi => ⟨_, List.getElem?_eq_getElem (by omega)⟩
    obtain ⟨l0, h0⟩ := get 0 (by omega)
    obtain ⟨l2, h2⟩ := get 2 (by omega)
    obtain ⟨l3, h3⟩ := get 3 (by omega)
    obtain ⟨l4, h4⟩ := get 4 (by omega)
    obtain ⟨a, ha⟩ := hrows 2 l2 (by omega) h2
    obtain ⟨b, hb⟩ := hrows 3 l3 (by omega) h3
    obtain ⟨c, hc⟩ := hrows 4 l4 (by omega) h4
    have e5 : lineAt (textLines content) 5 = .error .indexError := by
      unfold lineAt; rw [List.getElem?_eq_none (by omega)]
    have : vaspParse content = .error .indexError := by
      unfold vaspParse
      simp only [show (splitNL content).filter notBlank = textLines content from rfl]
      rw [(lineAt_iff _ _ _).2 h0, (lineAt_iff _ _ _).2 hl]
      simp only [bind, Except.bind, ((C99_float _).1 _).2 hz]
      rw [take3_iff.2 ⟨⟨l2, h2, ha⟩, ⟨l3, h3, hb⟩, ⟨l4, h4, hc⟩⟩]
      simp only [e5]
    unfold vaspReadCell vaspFromString
    rw [this]; rfl

/-- **C98, YAML.** A mapping gives a cell exactly if it has the keys `lattice`, `zoom`, `positions` and `numbers`, at least one position and no fewer
numbers than positions; a missing key is a `KeyError`. Atomic numbers are not looked up, so unknown ones are accepted. -/
theorem C98_yaml (d : YDoc) :
    ((∃ c, yamlReadCell d = .ok c) ↔ ∃ l z p n, d.lattice = some l ∧ d.zoom = some z ∧ d.positions = some p ∧ d.numbers = some n ∧
      p ≠ [] ∧ p.length ≤ n.length) ∧
    (yamlReadCell d = .error .keyError ↔ d.lattice = none ∨ d.zoom = none ∨ d.positions = none ∨ d.numbers = none) := by
  obtain ⟨cm, l, p, n, z⟩ := d
  unfold yamlReadCell yamlFromDoc
  cases l with
  | none => simp [need, bind, Except.bind]
  | some l =>
    cases z with
    | none => simp [need, bind, Except.bind]
    | some z =>
      cases p with
      | none => simp [need, bind, Except.bind]
      | some p =>
        cases n with
        | none => simp [need, bind, Except.bind]
        | some n =>
          obtain ⟨h1, h2, h3⟩ := C09_constructor_domain (V3.map (V3.map fun x => around 4 (x * z)) l) (p.map (V3.map (around 4))) n
          simp only [need, bind, Except.bind, pure, Except.pure]
          constructor
          · rw [h1]; simp
          · cases hg : GCell.new (V3.map (V3.map fun x => around 4 (x * z)) l) (p.map (V3.map (around 4))) n with
            | ok c => simp
            | error er =>
              have : p = [] ∨ (p ≠ [] ∧ n.length < p.length) := by
                by_contra hh
                push Not at hh
                obtain ⟨c, hc⟩ := h1.2 ⟨by simpa using hh.1, by simpa using hh.2 hh.1⟩
                rw [hc] at hg; cases hg
              rcases this with hp | hp
              · rw [h2.2 (by simp [hp])] at hg
                obtain rfl := Except.error.inj hg
                simp
              · rw [h3.2 (by simpa using hp)] at hg
                obtain rfl := Except.error.inj hg
                simp

/-- a text that declares three atoms and lists two sites, with the second symbol line entry unused, cartesian mode line -/
def exShort : List Char := "any\n1\n3 0 0\n0 3 0\n0 0 3\nB Zn\n3\ncartesian\n0 0 0\n0.5 0.25 0 B\n".toList

/-- it is accepted: two boron sites -/
example : (match vaspReadCell id exShort with | .ok c => decide (c.positions.zip c.numbers = [((0, 0, 0), 5), ((1/2, 1/4, 0), 5)]) | .error _ => false) = true := by
  decide +kernel

/-- one line more than atoms declared is rejected -/
example : (match vaspReadCell id ("any\n1\n3 0 0\n0 3 0\n0 0 3\nB Zn\n1 0\ndirect\n0 0 0\n0.5 0.25 0\n".toList) with | .ok _ => none | .error er => some er) =
    some PyErr.indexError := by
  decide +kernel

/-- so is `Selective dynamics`, which pushes the mode line among the sites -/
example : (match vaspReadCell id ("any\n1\n3 0 0\n0 3 0\n0 0 3\nB\n1\nSelective dynamics\ndirect\n0 0 0\n".toList) with | .ok _ => none | .error er => some er) =
    some PyErr.valueError := by
  decide +kernel

end Verif
