import Verif.Model.Element

/-! # C01, C02: the periodic table (ababe/stru/element.py) -/

namespace Verif

theorem ptDb_nodup_symbols : (ptDb.map (·.1)).Nodup := by decide +kernel
theorem ptDb_nodup_numbers : (ptDb.map (·.2)).Nodup := by decide +kernel

theorem ptDb_find_symbol :
    ∀ kv ∈ ptDb, ptDb.find? (fun x => x.1 == kv.1) = some kv := by decide +kernel

theorem ptDb_filter_number :
    ∀ kv ∈ ptDb, (ptDb.filter (fun x => x.2 == kv.2)).map (·.1) = [kv.1] := by decide +kernel

theorem ptDb_zero : ∀ kv ∈ ptDb, kv.2 = 0 → kv.1 = "G" := by decide +kernel

theorem ptDb_numbers :
    ∀ kv ∈ ptDb, (0 ≤ kv.2 ∧ kv.2 ≤ 56) ∨ (72 ≤ kv.2 ∧ kv.2 ≤ 88) := by decide +kernel

theorem ptDb_numbers_conv_lo : ∀ n : Nat, n < 57 → ∃ kv ∈ ptDb, kv.2 = (n : Int) := by
  decide +kernel

theorem ptDb_numbers_conv_hi : ∀ n : Nat, n < 17 → ∃ kv ∈ ptDb, kv.2 = (n : Int) + 72 := by
  decide +kernel

/-- A species object a program can hold: the ghost, or the result of a successful construction. -/
inductive ReachableSpecie : Specie → Prop
  | ghost : ReachableSpecie Specie.ghost
  | symbol {s sp} : Specie.ofSymbol s = .ok sp → ReachableSpecie sp
  | number {n sp} : Specie.fromNum n = .ok sp → ReachableSpecie sp

/-- `Specie(s)` succeeds exactly for the symbols of the table and then carries the table's number. -/
theorem ofSymbol_ok_iff (s : String) (sp : Specie) :
    Specie.ofSymbol s = .ok sp ↔ sp.symbol = s ∧ (s, sp.Z) ∈ ptDb := by
  unfold Specie.ofSymbol
  constructor
  · intro h
    split at h
    · rename_i kv hkv
      have h1 := List.find?_some hkv
      have h2 := List.mem_of_find?_eq_some hkv
      simp only [beq_iff_eq] at h1
      injection h with h
      subst h; subst h1
      exact ⟨rfl, h2⟩
    · cases h
  · rintro ⟨rfl, h⟩
    rw [ptDb_find_symbol _ h]

theorem fromNum_ok_iff (n : Int) (sp : Specie) :
    Specie.fromNum n = .ok sp ↔ sp.Z = n ∧ (sp.symbol, n) ∈ ptDb := by
  unfold Specie.fromNum
  constructor
  · intro h
    split at h
    · injection h with h; subst h; rename_i h0; subst h0
      exact ⟨rfl, by decide +kernel⟩
    · split at h
      · cases h
      · rename_i key t hk
        have hm : key ∈ (ptDb.filter (fun kv => kv.2 == n)).map (·.1) := by rw [hk]; simp
        simp only [List.mem_map, List.mem_filter, beq_iff_eq] at hm
        obtain ⟨kv, ⟨hkv, hz⟩, hs⟩ := hm
        obtain ⟨hs', hmem⟩ := (ofSymbol_ok_iff _ _).1 h
        have : ptDb.find? (fun x => x.1 == key) = some kv := by
          rw [← hs]; exact ptDb_find_symbol _ hkv
        have h2 := ptDb_find_symbol _ hmem
        simp only at h2
        rw [this] at h2
        injection h2 with h2
        subst h2
        simp only at hz
        subst hz
        refine ⟨rfl, ?_⟩
        rw [hs']; exact hmem
  · rintro ⟨rfl, h⟩
    split
    · rename_i h0
      have := ptDb_zero _ h h0
      cases sp; simp_all [Specie.ghost]
    · rw [ptDb_filter_number _ h]
      exact (ofSymbol_ok_iff _ _).2 ⟨rfl, h⟩

theorem toName_ok_iff (n : Int) (s : String) :
    Specie.toName n = .ok s ↔ (s, n) ∈ ptDb := by
  unfold Specie.toName
  constructor
  · intro h
    split at h
    · injection h with h; subst h; rename_i h0; subst h0; decide +kernel
    · split at h
      · cases h
      · rename_i key t hk
        injection h with h
        subst h
        have hm : key ∈ (ptDb.filter (fun kv => kv.2 == n)).map (·.1) := by rw [hk]; simp
        simp only [List.mem_map, List.mem_filter, beq_iff_eq] at hm
        obtain ⟨kv, ⟨hkv, hz⟩, hs⟩ := hm
        subst hz; subst hs; exact hkv
  · intro h
    split
    · rename_i h0
      have := ptDb_zero _ h h0
      simp_all
    · rw [ptDb_filter_number _ h]

/-- **C01**, round trip. Whenever `Specie(s)` succeeds, its number leads back to the very same species and name. -/
theorem C01_lookup_roundtrip (s : String) (sp : Specie) (h : Specie.ofSymbol s = .ok sp) :
    sp.symbol = s ∧ Specie.fromNum sp.Z = .ok sp ∧ Specie.toName sp.Z = .ok s := by
  obtain ⟨h1, h2⟩ := (ofSymbol_ok_iff s sp).1 h
  subst h1
  exact ⟨rfl, (fromNum_ok_iff _ _).2 ⟨rfl, h2⟩, (toName_ok_iff _ _).2 h2⟩

example : Specie.ofSymbol "Zn" = .ok ⟨"Zn", 30⟩ := by decide +kernel

/-- **C01**, other direction. Whenever `from_num(n)` succeeds, the species has number `n`, `to_name(n)` is its symbol,
and building it from the symbol gives the same species. -/
theorem C01_number_roundtrip (n : Int) (sp : Specie) (h : Specie.fromNum n = .ok sp) :
    sp.Z = n ∧ Specie.toName n = .ok sp.symbol ∧ Specie.ofSymbol sp.symbol = .ok sp := by
  obtain ⟨h1, h2⟩ := (fromNum_ok_iff n sp).1 h
  subst h1
  exact ⟨rfl, (toName_ok_iff _ _).2 h2, (ofSymbol_ok_iff _ _).2 ⟨rfl, h2⟩⟩

/-- **C01**, domain: the known numbers are exactly 0–56 and 72–88 (the lanthanides and everything beyond Ra are missing);
for every other integer both lookups raise `IndexError`, and nothing else is ever raised. -/
theorem C01_number_domain (n : Int) :
    ((∃ sp, Specie.fromNum n = .ok sp) ↔ (0 ≤ n ∧ n ≤ 56) ∨ (72 ≤ n ∧ n ≤ 88)) ∧
    (¬ ((0 ≤ n ∧ n ≤ 56) ∨ (72 ≤ n ∧ n ≤ 88)) →
      Specie.fromNum n = .error .indexError ∧ Specie.toName n = .error .indexError) := by
  have key : (∃ kv ∈ ptDb, kv.2 = n) ↔ (0 ≤ n ∧ n ≤ 56) ∨ (72 ≤ n ∧ n ≤ 88) := by
    constructor
    · rintro ⟨kv, h, rfl⟩; exact ptDb_numbers kv h
    · rintro (⟨h1, h2⟩ | ⟨h1, h2⟩)
      · obtain ⟨kv, h, e⟩ := ptDb_numbers_conv_lo n.toNat (by omega)
        exact ⟨kv, h, by omega⟩
      · obtain ⟨kv, h, e⟩ := ptDb_numbers_conv_hi (n - 72).toNat (by omega)
        exact ⟨kv, h, by omega⟩
  constructor
  · rw [← key]
    constructor
    · rintro ⟨sp, h⟩
      exact ⟨_, ((fromNum_ok_iff _ _).1 h).2, rfl⟩
    · rintro ⟨kv, h, rfl⟩
      exact ⟨⟨kv.1, kv.2⟩, (fromNum_ok_iff _ _).2 ⟨rfl, h⟩⟩
  · rw [← key]
    intro hno
    have hf : (ptDb.filter (fun kv => kv.2 == n)).map (·.1) = [] := by
      simp only [List.map_eq_nil_iff, List.filter_eq_nil_iff, beq_iff_eq]
      exact fun kv h e => hno ⟨kv, h, e⟩
    have h0 : n ≠ 0 := by
      rintro rfl
      exact hno ⟨("G", 0), by decide +kernel, rfl⟩
    simp [Specie.fromNum, Specie.toName, h0, hf]

/-- **C01**, domain of `Specie(s)`: `KeyError` exactly for symbols outside the table. -/
theorem C01_symbol_domain (s : String) :
    (Specie.ofSymbol s = .error .keyError ↔ ∀ z, (s, z) ∉ ptDb) ∧
    ((∃ z, (s, z) ∈ ptDb) → ∃ sp, Specie.ofSymbol s = .ok sp) := by
  constructor
  · constructor
    · intro h z hz
      rw [(ofSymbol_ok_iff s ⟨s, z⟩).2 ⟨rfl, hz⟩] at h
      cases h
    · intro h
      unfold Specie.ofSymbol
      split
      · rename_i kv hkv
        have h1 := List.find?_some hkv
        have h2 := List.mem_of_find?_eq_some hkv
        simp only [beq_iff_eq] at h1
        subst h1
        exact absurd h2 (h _)
      · rfl
  · rintro ⟨z, hz⟩
    exact ⟨⟨s, z⟩, (ofSymbol_ok_iff _ _).2 ⟨rfl, hz⟩⟩

example : Specie.fromNum 60 = .error .indexError := by decide +kernel
example : Specie.ofSymbol "Xx" = .error .keyError := by decide +kernel

theorem reachable_mem {sp : Specie} (h : ReachableSpecie sp) : (sp.symbol, sp.Z) ∈ ptDb := by
  cases h with
  | ghost => decide +kernel
  | symbol h => have := (ofSymbol_ok_iff _ _).1 h; rw [this.1]; exact this.2
  | number h => have := (fromNum_ok_iff _ _).1 h; rw [this.1]; exact this.2

/-- **C02** `==` on species is decided by the atomic number, equivalently by the symbol; it is an equivalence relation;
`!=` is its negation; `Specie('G') == GhostSpecie()`. -/
theorem C02_equality :
    (∀ a b : Specie, a.pyEq b = true ↔ a.Z = b.Z) ∧
    (∀ a b : Specie, ReachableSpecie a → ReachableSpecie b → (a.pyEq b = true ↔ a.symbol = b.symbol)) ∧
    (∀ a : Specie, a.pyEq a = true) ∧
    (∀ a b : Specie, a.pyEq b = true → b.pyEq a = true) ∧
    (∀ a b c : Specie, a.pyEq b = true → b.pyEq c = true → a.pyEq c = true) ∧
    (∀ a b : Specie, a.pyNe b = true ↔ ¬ a.pyEq b = true) ∧
    (∃ g, Specie.ofSymbol "G" = .ok g ∧ g.pyEq Specie.ghost = true) := by
  have e : ∀ a b : Specie, a.pyEq b = true ↔ a.Z = b.Z := by
    intro a b; simp [Specie.pyEq]
  refine ⟨e, ?_, ?_, ?_, ?_, ?_, ⟨⟨"G", 0⟩, by decide +kernel, by decide⟩⟩
  · intro a b ha hb
    rw [e]
    have ha := reachable_mem ha
    have hb := reachable_mem hb
    constructor
    · intro h
      have h1 := ptDb_filter_number _ ha
      have h2 := ptDb_filter_number _ hb
      simp only [h] at h1 h2
      rw [h1] at h2
      simpa using h2
    · intro h
      have h1 := ptDb_find_symbol _ ha
      have h2 := ptDb_find_symbol _ hb
      simp only [h] at h1 h2
      rw [h1] at h2
      simpa using h2
  · intro a; rw [e]
  · intro a b; rw [e, e]; exact Eq.symm
  · intro a b c; rw [e, e, e]; exact Eq.trans
  · intro a b; simp [Specie.pyNe]

example : ReachableSpecie ⟨"C", 6⟩ := .symbol (s := "C") (by decide +kernel)

end Verif
