import Verif.Props.Binary64GridFail
import Verif.Props.NumpyStr

/-! # C131: `is_stru_equal` at 80 layers

The same ten layers as in `C131_false_80`: rounding to ten decimals first does not move the ties either. -/

set_option exponentiation.threshold 2000

namespace Verif

/-- operations that leave every site in place relate a grid only to itself -/
theorem mirror_equiv_self {d : ℕ} {same : V3 ℚ → V3 ℚ → Prop} (hs : ∀ x y, Spec.Cong x y → same x y) {A B : Cube Specie}
    (hA : Spec.Box d 2 1 A) (hB : Spec.Box d 2 1 B) (h : Spec.GridEquiv same d 2 1 mirrorOps A B) : A.flatten.flatten = B.flatten.flatten := by
  obtain ⟨op, hop, hcar⟩ := h
  apply List.ext_getElem?
  intro i
  by_cases hi : i < 2 * d
  · have e : i = (i / 2 * 2 + i % 2) * 1 + 0 := by omega
    rw [e, box_getElem? hA _ _ _ (Nat.mod_lt _ (by omega)) (by omega), box_getElem? hB _ _ _ (Nat.mod_lt _ (by omega)) (by omega)]
    exact hcar _ _ _ _ _ _ (by omega) (by omega) (by omega) (by omega) (by omega) (by omega)
      (hs _ _ (mirror_fixes d hop (by omega) (by omega)))
  · rw [List.getElem?_eq_none (by rw [box_length hA]; omega), List.getElem?_eq_none (by rw [box_length hB]; omega)]

/-- the operations keep every position of the grid -/
theorem mirror_keeps {d : ℕ} {op : Spec.Op} (hop : op ∈ mirrorOps) {x : V3 ℚ} (hx : x ∈ gridPos d 2 1) : Spec.Cong (op.image x) x := by
  obtain ⟨i, hi⟩ := List.mem_iff_getElem?.1 hx
  obtain ⟨c, b, a, _, hb, ha, _, rfl⟩ := gridPos_index hi
  exact mirror_fixes d hop hb ha

/-- the layers whose two sites the double precision run confuses -/
def lostLayers : List ℕ := [1, 11, 21, 27, 31, 37, 47, 57, 67, 77]

set_option maxRecDepth 100000 in
theorem base10_80 : idSeqN64 10 (gridPos64 80 2 1) = .ok (List.range 160) := by decide +kernel

set_option maxRecDepth 100000 in
theorem rows10_80 : mirrorOps.map (fun op => idSeqN64 10 ((gridPos64 80 2 1).map (applyOp64 op))) =
    [.ok (List.range 160), .ok (swapRow 80 lostLayers)] := by
  decide +kernel

theorem getIdSeq64_ok (render : List ℤ → List Char) {pos : List (V3 ℚ)} {nums : List ℤ} {p : List ℕ} (hp : idSeqN64 10 pos = .ok p)
    (hl : ∀ i ∈ p, i < nums.length) : getIdSeq64 render pos nums = .ok (render (gather nums p)) := by
  unfold getIdSeq64
  rw [hp, okBind, fancy_gather hl, okBind]
  rfl

set_option maxRecDepth 100000 in
/-- **C131, `is_stru_equal` at 80 layers.** On the 80 × 2 × 1 grid, with the identity and the mirror operation that fixes every site, two
grids that differ by the position of their only speckle within one of ten layers are reported to be equal in double precision. Exact
arithmetic tells them apart. -/
theorem C131_equal_false_80 (render : List ℤ → List Char) (hr : NumpyStr render) (m m' : M3 ℚ) (sea sp : Specie) (hsea : ReachableSpecie sea)
    (hsp : ReachableSpecie sp) (hne : sea ≠ sp) : ∀ c ∈ [1, 11, 21, 27, 31, 37, 47, 57, 67, 77],
    isStruEqual64 render ⟨m, oneSpeckle 80 sea sp (2 * c + 1), 80, 2, 1⟩ ⟨m', oneSpeckle 80 sea sp (2 * c), 80, 2, 1⟩ mirrorOps = .ok true ∧
    isStruEqual render ⟨m, oneSpeckle 80 sea sp (2 * c + 1), 80, 2, 1⟩ ⟨m', oneSpeckle 80 sea sp (2 * c), 80, 2, 1⟩ mirrorOps = .ok false := by
  intro c hc
  have hcl : c < 80 := by revert c; decide
  have hA := oneSpeckle_box 80 sea sp (2 * c + 1)
  have hB := oneSpeckle_box 80 sea sp (2 * c)
  have hZ : sea.Z ≠ sp.Z := fun h => hne (by rw [← (reachable_known hsea).2, ← (reachable_known hsp).2, h])
  have hnum : ∀ t, ((oneSpeckle 80 sea sp t).flatten.flatten.map (·.Z)) = (List.replicate 160 sea.Z).set t sp.Z := fun t => by
    rw [oneSpeckle_flat, List.map_set, List.map_replicate]
  constructor
  · obtain ⟨ca, a1, a2, a3⟩ := getCell64_ok m (d := 80) (w := 2) (l := 1) (by omega) (by omega) (by omega) _ hA
    obtain ⟨cb, b1, b2, b3⟩ := getCell64_ok m' (d := 80) (w := 2) (l := 1) (by omega) (by omega) (by omega) _ hB
    have hperm : IsPerm 160 (swapRow 80 lostLayers) :=
      (swap_group 80 lostLayers (by decide +kernel) (by decide +kernel)).perm _ (by simp)
    have hrows := rows10_80
    simp only [mirrorOps, List.map_cons, List.map_nil, List.cons.injEq, and_true] at hrows
    have hlen : ∀ t, ((List.replicate 160 sea.Z).set t sp.Z).length = 160 := fun t => by simp
    unfold isStruEqual64
    rw [a1, okBind, b1, okBind, a2, a3, b2, b3, hnum, hnum,
      getIdSeq64_ok render base10_80 (fun i hi => by rw [hlen]; exact List.mem_range.1 hi), okBind]
    have hself : gather ((List.replicate 160 sea.Z).set (2 * c + 1) sp.Z) (List.range 160) = (List.replicate 160 sea.Z).set (2 * c + 1) sp.Z := by
      have := gather_range ((List.replicate 160 sea.Z).set (2 * c + 1) sp.Z)
      rwa [hlen] at this
    have hswap : gather ((List.replicate 160 sea.Z).set (2 * c) sp.Z) (swapRow 80 lostLayers) = (List.replicate 160 sea.Z).set (2 * c + 1) sp.Z := by
      refine gather_one hperm ?_ _ _
      unfold swapRow
      rw [List.getElem?_map, List.getElem?_range (by omega)]
      have e1 : (2 * c + 1) / 2 = c := by omega
      have hc' : c ∈ lostLayers := hc
      simp [e1, hc']
    rw [hself]
    simp only [mirrorOps, List.foldlM_cons, List.foldlM_nil]
    rw [getIdSeq64_ok render hrows.1 (fun i hi => by rw [hlen]; exact List.mem_range.1 hi), okBind]
    simp only [pure, Except.pure, okBind]
    rw [getIdSeq64_ok render hrows.2 (fun i hi => by rw [hlen]; exact hperm.lt i hi), okBind, hswap]
    simp only [if_true]
    rfl
  · have hgood : ∀ x y, Spec.Cong x y → SameAt 10 x y := fun x y h => keyN_cong (by norm_num) x y h
    have hkeys := (gridPos_keys (n := 10) (by norm_num) (by norm_num : 80 ≤ 990) (by norm_num : 2 ≤ 990) (by norm_num : 1 ≤ 990)).2
    have hsp' : ∀ t, ∀ x ∈ (oneSpeckle 80 sea sp t).flatten.flatten, ReachableSpecie x := by
      intro t x hx
      rw [oneSpeckle_flat] at hx
      rcases List.mem_or_eq_of_mem_set hx with h | rfl
      · rw [List.eq_of_mem_replicate h]; exact hsea
      · exact hsp
    obtain ⟨sA, sB, r, h1, h2, h3, h4⟩ := C63_equal_partial render hr m m' (d := 80) (w := 2) (l := 1) (by omega) (by omega) (by omega)
      (by omega) (by omega) (by omega) (by omega) _ _ hA hB (hsp' _) (hsp' _) mirrorOps
      (fun g hg x hx => ⟨x, hx, hgood _ _ (mirror_keeps hg hx)⟩)
      (fun g hg x hx y hy h => List.inj_on_of_nodup_map hkeys hx hy
        (((hgood _ _ (mirror_keeps hg hx)).symm.trans h).trans (hgood _ _ (mirror_keeps hg hy))))
    rw [cstru_new m (by omega) (by omega) _ hA] at h1
    rw [cstru_new m' (by omega) (by omega) _ hB] at h2
    injection h1 with h1
    injection h2 with h2
    subst h1 h2
    rw [h3]
    congr 1
    rw [← Bool.not_eq_true, h4]
    intro h
    have he := congrArg (List.map (·.Z)) (mirror_equiv_self hgood hB hA h)
    rw [hnum, hnum] at he
    exact set_one_ne (by omega) (by omega) hZ he

/-- the text numpy prints meets the hypothesis -/
example : NumpyStr npArrayStr := C133_numpy

end Verif
