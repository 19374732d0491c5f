import Verif.Props.Hnf
import Verif.Props.Symmetry
import Mathlib.Algebra.BigOperators.Group.Finset.Basic
import Mathlib.Algebra.BigOperators.Ring.Finset
import Mathlib.NumberTheory.Divisors
import Mathlib.Tactic.Ring

/-! # C84: how many superlattices there are -/

namespace Verif

open Spec

/-- adding over a list of the divisors is adding over the divisors -/
theorem sum_factors {n : ℕ} (hn : 0 < n) {l : List ℕ} (h1 : l.Nodup) (h2 : ∀ x, x ∈ l ↔ (0 < x ∧ x ∣ n)) (f : ℕ → ℕ) :
    (l.map f).sum = ∑ d ∈ n.divisors, f d := by
  rw [← List.sum_toFinset f h1]
  refine Finset.sum_congr ?_ fun _ _ => rfl
  ext x
  rw [List.mem_toFinset, h2, Nat.mem_divisors]
  exact ⟨fun h => ⟨h.2, by omega⟩, fun h => ⟨Nat.pos_of_dvd_of_pos h.1 hn, h.1⟩⟩

theorem hnfMatsOf_length (setList : List ℕ → List ℕ) (hs : SetOrder setList) (n a : ℕ) (h : 0 < n / a) :
    ∃ ms, hnfMatsOf setList n a = .ok ms ∧ ms.length = n / a * ∑ f ∈ (n / a).divisors, f := by
  obtain ⟨cs, h1, h2, h3⟩ := (C27_factors setList hs (n / a)).1 h
  unfold hnfMatsOf
  rw [h1]
  refine ⟨_, rfl, ?_⟩
  have hlen : ∀ c, ((List.range c).flatMap fun b => (List.range (n / a / c)).flatMap fun d =>
      (List.range (n / a / c)).map fun e => hnfMat a b d c e (n / a / c)).length = c * (n / a / c * (n / a / c)) := by
    intro c
    simp [List.length_flatMap]
  rw [List.length_flatMap]
  simp only [hlen]
  rw [sum_factors h h2 h3, Finset.mul_sum, ← Nat.sum_div_divisors (n / a) fun f => n / a * f]
  refine Finset.sum_congr rfl fun c hc => ?_
  have hd : c * (n / a / c) = n / a := Nat.mul_div_cancel' (Nat.dvd_of_mem_divisors hc)
  rw [← mul_assoc, hd]

/-- **C84.** `hnfs_from_n_dups` yields `Σ_{d ∣ n} d·σ(d)` superlattices of multiplicity `n`, where `σ(d)` is the sum of the divisors
of `d`, for every order in which Python iterates over sets. -/
theorem C84_count (setList : List ℕ → List ℕ) (hs : SetOrder setList) (unit : GCell) (rots : List (M3 ℤ)) (n : ℕ) (hn : 0 < n) :
    ∃ l, hnfsFromNDups setList unit rots n = .ok l ∧ l.length = ∑ d ∈ n.divisors, d * ∑ f ∈ d.divisors, f := by
  obtain ⟨as, ha1, ha2, ha3⟩ := (C27_factors setList hs n).1 hn
  have hex : ∀ a : ℕ, ∃ ms, a ∈ as → hnfMatsOf setList n a = .ok ms ∧ ms.length = n / a * ∑ f ∈ (n / a).divisors, f := by
    intro a
    by_cases ha : a ∈ as
    · obtain ⟨ms, h⟩ := hnfMatsOf_length setList hs n a (Nat.div_pos (Nat.le_of_dvd hn ((ha3 a).1 ha).2) ((ha3 a).1 ha).1)
      exact ⟨ms, fun _ => h⟩
    · exact ⟨[], fun h => absurd h ha⟩
  choose G hG using hex
  refine ⟨(as.flatMap G).map (SLCell.new unit rots), ?_, ?_⟩
  · unfold hnfsFromNDups hnfMats
    rw [ha1]
    have := mapM_ok_flatten _ G as fun a ha => (hG a ha).1
    simp only [bind, Except.bind, pure, Except.pure] at this ⊢
    rw [this]
  · rw [List.length_map, List.length_flatMap]
    rw [List.map_congr_left fun a ha => (hG a ha).2, sum_factors hn ha2 ha3 fun a => n / a * ∑ f ∈ (n / a).divisors, f]
    exact Nat.sum_div_divisors n fun d => d * ∑ f ∈ d.divisors, f

/-- the same number counts the subgroups of index `n` of the lattice -/
theorem C84_subgroups (n : ℕ) (hn : 0 < n) :
    Nat.card {L : AddSubgroup (V3 ℤ) // L.index = n} = ∑ d ∈ n.divisors, d * ∑ f ∈ d.divisors, f := by
  obtain ⟨l, h1, h2⟩ := C84_count List.dedup setOrder_dedup exChain [] n hn
  obtain ⟨l', h1', h2'⟩ := C29_count List.dedup setOrder_dedup exChain [] n hn
  rw [h1] at h1'
  obtain rfl := Except.ok.inj h1'
  rw [← h2', h2]

/-- **C84, two dimensions.** The 2D generator yields `σ(n)` superlattices. -/
theorem C84_count_2d (setList : List ℕ → List ℕ) (hs : SetOrder setList) (unit : GCell) (rots : List (M3 ℤ)) (n : ℕ) (hn : 0 < n) :
    ∃ l, hnfsFromNDups2D setList unit rots n = .ok l ∧ l.length = ∑ d ∈ n.divisors, d := by
  obtain ⟨as, ha1, ha2, ha3⟩ := (C27_factors setList hs n).1 hn
  refine ⟨(as.flatMap fun a => (List.range (n / a)).map fun b => hnfMat a b 0 (n / a) 0 1).map (SLCell.new unit rots), ?_, ?_⟩
  · unfold hnfsFromNDups2D hnfMats2D
    rw [ha1]
    rfl
  · rw [List.length_map, List.length_flatMap]
    simp only [List.length_map, List.length_range]
    rw [sum_factors hn ha2 ha3 fun a => n / a]
    exact Nat.sum_div_divisors n fun d => d

/-! ## the hypotheses are met -/

example : ∑ d ∈ (4 : ℕ).divisors, d * ∑ f ∈ d.divisors, f = 35 ∧ ∑ d ∈ (6 : ℕ).divisors, d = 12 := by decide +kernel

example (unit : GCell) (rots : List (M3 ℤ)) : ∃ l, hnfsFromNDups (fun l => l.dedup.reverse) unit rots 12 = .ok l ∧ l.length = 455 := by
  obtain ⟨l, h1, h2⟩ := C84_count _ setOrder_reverse unit rots 12 (by decide)
  exact ⟨l, h1, h2.trans (by decide +kernel)⟩

end Verif
