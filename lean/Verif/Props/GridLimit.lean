import Verif.Props.GridSym

/-! # C62: the size limit of `gen_nodup_cstru` is sharp

Beyond 990 layers two layers can have the same sort key (coordinates rounded to 3 decimals), and equivalent structures are yielded. -/

namespace Verif

/-! ### where the stable sort puts index 0 -/

/-- strictly smaller in the order of `np.lexsort` -/
def keyBelow (k x : V3 ℚ) : Bool := lexLe x k && decide (x ≠ k)

theorem lexsort3_zero {keys : List (V3 ℚ)} {k : V3 ℚ} (h : keys[0]? = some k) :
    ∃ A B, lexsort3 keys = A ++ 0 :: B ∧ A.length = keys.countP (keyBelow k) := by
  have hm : (k, 0) ∈ sortedPairs keys := (mem_sortedPairs keys (k, 0)).2 h
  obtain ⟨A, B, hAB⟩ := List.append_of_mem hm
  refine ⟨A.map (·.2), B.map (·.2), by rw [lexsort3_eq, hAB]; simp, ?_⟩
  have hp := sortedPairs_pairwise keys
  rw [hAB, List.pairwise_append] at hp
  obtain ⟨_, h2, h3⟩ := hp
  rw [List.pairwise_cons] at h2
  have hc : ((sortedPairs keys).map (·.1)).countP (keyBelow k) = A.length := by
    rw [hAB, List.map_append, List.countP_append, List.map_cons, List.countP_cons]
    have hA : (A.map (·.1)).countP (keyBelow k) = A.length := by
      rw [List.countP_eq_length.2, List.length_map]
      intro x hx
      obtain ⟨p, hp, rfl⟩ := List.mem_map.1 hx
      have := h3 p hp (k, 0) (by simp)
      simp only [keyBelow, Bool.and_eq_true, decide_eq_true_eq]
      exact ⟨this.1, fun he => absurd (this.2 he) (by simp)⟩
    have hB : (B.map (·.1)).countP (keyBelow k) = 0 := by
      rw [List.countP_eq_zero]
      intro x hx hb
      obtain ⟨p, hp, rfl⟩ := List.mem_map.1 hx
      have := h2.1 p hp
      simp only [keyBelow, Bool.and_eq_true, decide_eq_true_eq] at hb
      exact hb.2 (lexLe_antisymm _ _ hb.1 this.1)
    rw [hA, hB]
    simp [keyBelow]
  rw [List.length_map, ← hc]
  exact (sorted_keys_perm keys).countP_eq _

/-- gathering a decoration with the one different atom at index 0 -/
theorem gather_zero {n : ℕ} {p A B : List ℕ} (hp : IsPerm n p) (hAB : p = A ++ 0 :: B) (s z : ℤ) :
    gather ((List.replicate n s).set 0 z) p = (List.replicate n s).set A.length z := by
  have hlt : ∀ i ∈ p, i < ((List.replicate n s).set 0 z).length := by
    intro i hi; simpa using hp.lt i hi
  have hnd : p.Nodup := hp.nodup_iff.2 List.nodup_range
  have hlen : p.length = n := hp.length
  apply List.ext_getElem?
  intro t
  rw [gather_getElem? hlt, List.getElem?_set]
  by_cases ht : A.length = t
  · subst ht
    have h0 : p[A.length]? = some 0 := by rw [hAB]; simp
    have hn : A.length < n := by
      rw [← hlen, hAB]; simp
    rw [h0]
    have hn0 : 0 < n := by omega
    simp [hn, hn0]
  · rw [if_neg ht]
    rcases Nat.lt_or_ge t n with h | h
    · rw [List.getElem?_eq_getElem (by omega), Option.bind_some, List.getElem?_set]
      have hne : ¬ 0 = p[t] := by
        intro he
        apply ht
        have h0 : p[A.length]? = some 0 := by rw [hAB]; simp
        have h1 : p[t]? = some 0 := by rw [List.getElem?_eq_getElem (by omega), ← he]
        have hA : A.length < p.length := by rw [hAB]; simp
        exact (List.getElem?_inj hA hnd).1 (h0.trans h1.symm)
      rw [if_neg hne, List.getElem?_replicate, List.getElem?_replicate, if_pos h,
        if_pos (hp.lt _ (List.getElem_mem _))]
    · rw [List.getElem?_eq_none (by omega), List.getElem?_eq_none (by simpa using h)]
      rfl

/-! ### the translations of a chain -/

/-- the `d` translations along a chain of `d` layers -/
def shiftOps (d : ℕ) : List Spec.Op := (List.range d).map fun k : ℕ => (((1, 0, 0), (0, 1, 0), (0, 0, 1)), ((k : ℚ) / d, 0, 0))

theorem gridPos_chain (d : ℕ) : gridPos d 1 1 = (List.range d).map fun i => Spec.site d 1 1 i 0 0 := by
  have h : yieldPosition d 1 1 = (List.range d).map fun i => (i, 0, 0) := by
    unfold yieldPosition
    induction List.range d with
    | nil => rfl
    | cons a l ih => rw [List.flatMap_cons, ih]; rfl
  unfold gridPos
  rw [h, List.map_map]
  rfl

theorem chainShift_image (d k i : ℕ) :
    Spec.Op.image (((1, 0, 0), (0, 1, 0), (0, 0, 1)), ((k : ℚ) / d, 0, 0)) (Spec.site d 1 1 i 0 0) = (((i + k : ℕ) : ℚ) / d, 0, 0) := by
  unfold Spec.Op.image Spec.site
  ext <;> simp
  ring

theorem site_chain (d i : ℕ) : Spec.site d 1 1 i 0 0 = ((i : ℚ) / d, 0, 0) := by
  unfold Spec.site; ext <;> simp

theorem mod_div {d : ℕ} (hd : 0 < d) (n : ℕ) : ((n : ℚ) / d) = ((n % d : ℕ) : ℚ) / d + ((n / d : ℕ) : ℚ) := by
  have hd0 : (d : ℚ) ≠ 0 := by exact_mod_cast hd.ne'
  have h : (n : ℚ) = (d : ℚ) * ((n / d : ℕ) : ℚ) + ((n % d : ℕ) : ℚ) := by exact_mod_cast (Nat.div_add_mod n d).symm
  rw [div_eq_iff hd0, add_mul, div_mul_cancel₀ _ hd0]
  linarith

theorem cong_chain {d : ℕ} (hd : 0 < d) (n m : ℕ) : Spec.Cong ((n : ℚ) / d, 0, 0) ((m : ℚ) / d, 0, 0) ↔ n % d = m % d := by
  have hd0 : (d : ℚ) ≠ 0 := by exact_mod_cast hd.ne'
  rw [Spec.cong_iff]
  constructor
  · rintro ⟨⟨z, hz⟩, _⟩
    have hz' : (m : ℚ) = n + z * d := by
      simp only at hz
      field_simp at hz
      linarith
    have hz'' : (m : ℤ) = n + z * d := by exact_mod_cast hz'
    have : (n : ℤ) % d = m % d := by rw [hz'']; simp
    exact_mod_cast this
  · intro h
    refine ⟨⟨((m / d : ℕ) : ℤ) - ((n / d : ℕ) : ℤ), ?_⟩, ⟨0, by simp⟩, ⟨0, by simp⟩⟩
    simp only
    rw [mod_div hd n, mod_div hd m, h, Int.cast_sub, Int.cast_natCast, Int.cast_natCast]
    ring

theorem shiftOps_contract {d : ℕ} (hd : 0 < d) : Spec.SymContract Spec.Cong (gridPos d 1 1) (shiftOps d) := by
  have hg : ∀ g ∈ shiftOps d, ∃ k < d, ∀ i, g.image (Spec.site d 1 1 i 0 0) = (((i + k : ℕ) : ℚ) / d, 0, 0) := by
    intro g hg
    obtain ⟨k, hk, rfl⟩ := List.mem_map.1 hg
    exact ⟨k, List.mem_range.1 hk, fun i => chainShift_image d k i⟩
  have hk : ∀ k < d, ∃ g ∈ shiftOps d, ∀ i, g.image (Spec.site d 1 1 i 0 0) = (((i + k : ℕ) : ℚ) / d, 0, 0) :=
    fun k hk => ⟨_, List.mem_map.2 ⟨k, List.mem_range.2 hk, rfl⟩, fun i => chainShift_image d k i⟩
  have hx : ∀ x ∈ gridPos d 1 1, ∃ i < d, x = Spec.site d 1 1 i 0 0 := by
    intro x hx
    rw [gridPos_chain] at hx
    obtain ⟨i, hi, rfl⟩ := List.mem_map.1 hx
    exact ⟨i, List.mem_range.1 hi, rfl⟩
  have hi : ∀ i < d, Spec.site d 1 1 i 0 0 ∈ gridPos d 1 1 := by
    intro i hi
    rw [gridPos_chain]
    exact List.mem_map.2 ⟨i, List.mem_range.2 hi, rfl⟩
  refine ⟨?_, ?_, ?_, ?_, ?_⟩
  · intro g hg' x hx'
    obtain ⟨k, _, hk⟩ := hg g hg'
    obtain ⟨i, _, rfl⟩ := hx x hx'
    refine ⟨_, hi ((i + k) % d) (Nat.mod_lt _ hd), ?_⟩
    rw [hk, site_chain, cong_chain hd, Nat.mod_mod]
  · intro g hg' x hx' y hy' h
    obtain ⟨k, _, hk⟩ := hg g hg'
    obtain ⟨i, h1, rfl⟩ := hx x hx'
    obtain ⟨j, h2, rfl⟩ := hx y hy'
    rw [hk, hk, cong_chain hd] at h
    have : i % d = j % d := Nat.ModEq.add_right_cancel' k h
    rw [Nat.mod_eq_of_lt h1, Nat.mod_eq_of_lt h2] at this
    rw [this]
  · obtain ⟨g, hg', h⟩ := hk 0 hd
    refine ⟨g, hg', fun x hx' => ?_⟩
    obtain ⟨i, _, rfl⟩ := hx x hx'
    rw [h, site_chain, cong_chain hd]
    rfl
  · intro f hf g hg'
    obtain ⟨k, _, h1⟩ := hg f hf
    obtain ⟨l, _, h2⟩ := hg g hg'
    obtain ⟨h, hh, h3⟩ := hk ((l + k) % d) (Nat.mod_lt _ hd)
    refine ⟨h, hh, ?_⟩
    intro x hx' y hy' z hz' e1 e2
    obtain ⟨a, _, rfl⟩ := hx x hx'
    obtain ⟨b, _, rfl⟩ := hx y hy'
    obtain ⟨c, _, rfl⟩ := hx z hz'
    rw [h2, site_chain, cong_chain hd] at e1
    rw [h1, site_chain, cong_chain hd] at e2
    rw [h3, site_chain, cong_chain hd, Nat.add_mod_mod, ← e2, ← Nat.add_assoc]
    exact Nat.ModEq.add_right k e1
  · intro f hf
    obtain ⟨k, hk', h1⟩ := hg f hf
    obtain ⟨h, hh, h3⟩ := hk ((d - k) % d) (Nat.mod_lt _ hd)
    refine ⟨h, hh, ?_⟩
    intro x hx' y hy' e1
    obtain ⟨a, _, rfl⟩ := hx x hx'
    obtain ⟨b, _, rfl⟩ := hx y hy'
    rw [h1, site_chain, cong_chain hd] at e1
    rw [h3, site_chain, cong_chain hd, Nat.add_mod_mod]
    have e2 : (b + (d - k)) % d = (a + k + (d - k)) % d := (Nat.ModEq.add_right (d - k) e1).symm
    rw [e2, show a + k + (d - k) = a + d by omega, Nat.add_mod_right]

/-- the sort keys after a translation -/
theorem chainShift_keys {d : ℕ} (hd : 0 < d) (k : ℕ) :
    ((gridPos d 1 1).map (applyOp (((1, 0, 0), (0, 1, 0), (0, 0, 1)), ((k : ℚ) / d, 0, 0)))).map (V3.map (keyN 5)) =
      (List.range d).map fun i => V3.map (keyN 5) ((((i + k) % d : ℕ) : ℚ) / d, 0, 0) := by
  rw [gridPos_chain, List.map_map, List.map_map]
  refine List.map_congr_left fun i _ => ?_
  simp only [Function.comp]
  rw [applyOp_eq, chainShift_image]
  exact keyN_cong (by norm_num) _ _ ((cong_chain hd _ _).2 (Nat.mod_mod _ _).symm)

theorem chainShift_range {d : ℕ} (hd : 0 < d) (k : ℕ) : ((List.range d).map fun i => (i + k) % d).Perm (List.range d) := by
  refine (List.Nodup.subperm ?_ ?_).perm_of_length_le (by simp)
  · refine List.Nodup.map_on ?_ List.nodup_range
    intro x hx y hy h
    rw [List.mem_range] at hx hy
    have : x % d = y % d := Nat.ModEq.add_right_cancel' k h
    rwa [Nat.mod_eq_of_lt hx, Nat.mod_eq_of_lt hy] at this
  · intro x hx
    obtain ⟨i, _, rfl⟩ := List.mem_map.1 hx
    exact List.mem_range.2 (Nat.mod_lt _ hd)

/-- sort key of layer `i` -/
def layerKey (d i : ℕ) : V3 ℚ := V3.map (keyN 5) ((i : ℚ) / d, 0, 0)

/-- number of layers with a smaller key than layer `k` -/
def layersBelow (d k : ℕ) : ℕ := ((List.range d).map (layerKey d)).countP (keyBelow (layerKey d k))

/-- what a translation does to the decoration with the one atom in layer 0: the atom ends up behind the layers with smaller keys -/
theorem chainShift_gather {d : ℕ} (hd : 0 < d) {k : ℕ} (hk : k < d) (s z : ℤ) :
    gather ((List.replicate d s).set 0 z) (lexsort3 (((gridPos d 1 1).map (applyOp (((1, 0, 0), (0, 1, 0), (0, 0, 1)), ((k : ℚ) / d, 0, 0)))).map
      (V3.map (keyN 5)))) = (List.replicate d s).set (layersBelow d k) z := by
  rw [chainShift_keys hd]
  have h0 : ((List.range d).map fun i => V3.map (keyN 5) ((((i + k) % d : ℕ) : ℚ) / d, 0, 0))[0]? = some (layerKey d k) := by
    rw [List.getElem?_map, List.getElem?_range hd]
    simp [layerKey, Nat.mod_eq_of_lt hk]
  obtain ⟨A, B, h1, h2⟩ := lexsort3_zero h0
  rw [gather_zero (by unfold IsPerm; have := lexsort3_perm ((List.range d).map fun i => V3.map (keyN 5) ((((i + k) % d : ℕ) : ℚ) / d, 0, 0)); rwa [List.length_map, List.length_range] at this) h1, h2]
  congr 1
  have := ((chainShift_range hd k).map (layerKey d)).countP_eq (keyBelow (layerKey d k))
  rw [List.map_map] at this
  exact this

/-! ### the generator on a chain -/

theorem combinations_one {α} (l : List α) : combinations l 1 = l.map fun x => [x] := by
  induction l with
  | nil => rfl
  | cons x l ih =>
    unfold combinations
    rw [ih]
    simp [combinations]

/-- the grids of `gen_speckle`, in the order they are yielded -/
theorem sgGenSpeckle_eq (ssp sp : Specie) (hs : ReachableSpecie ssp) (hp : ReachableSpecie sp) (hne : ssp ≠ sp) (d w l noa : ℕ)
    (hpos : 0 < d * w * l) : sgGenSpeckle ssp (d, w, l) sp noa = .ok ((combinations (List.range (d * w * l)) noa).map fun c =>
        cubeMap specieOf (reshape3 d w l (overwrite (List.replicate (d * w * l) ssp.Z) c sp.Z))) := by
  have hZ : ssp.Z ≠ sp.Z := fun h => hne (by rw [← (reachable_known hs).2, ← (reachable_known hp).2, h])
  obtain ⟨_, s2⟩ := speckle_list (d * w * l) noa ssp.Z sp.Z hZ
  refine mapM_ok _ _ _ fun c hc => ?_
  obtain ⟨m1, m2, _⟩ := (s2 _).1 (List.mem_map.2 ⟨c, hc, rfl⟩)
  refine cubeFromArray_ok _ ?_ ?_
  · rw [cubeSize]
    change (reshape3 d w l (overwrite (List.replicate (d * w * l) ssp.Z) c sp.Z)).flatten.flatten.length ≠ 0
    rw [reshape3_flatten _ _ _ _ m1, m1]; omega
  · intro n hn
    change n ∈ (reshape3 d w l (overwrite (List.replicate (d * w * l) ssp.Z) c sp.Z)).flatten.flatten at hn
    rw [reshape3_flatten _ _ _ _ m1] at hn
    rcases m2 n hn with rfl | rfl
    · exact (reachable_known hs).1
    · exact (reachable_known hp).1

theorem dedupL_nil {A K : Type _} [DecidableEq K] (key : A → K) (iso : A → List K) (seen : List K) (l : List A)
    (h : dedupL key iso seen l = []) : ∀ a ∈ l, key a ∈ seen := by
  induction l with
  | nil => simp
  | cons a l ih =>
    rw [dedupL_cons] at h
    split at h
    · rename_i hm
      intro b hb
      rcases List.mem_cons.1 hb with rfl | hb
      · exact hm
      · exact ih h b hb
    · cases h

/-- the chain with the one speckle in layer `t` -/
def chainGrid (sea sp : Specie) (d t : ℕ) : Cube Specie := (List.range d).map fun i => [[if i = t then sp else sea]]

theorem chainGrid_box (sea sp : Specie) (d t : ℕ) : Spec.Box d 1 1 (chainGrid sea sp d t) := by
  refine ⟨by simp [chainGrid], fun plane hp => ?_⟩
  obtain ⟨i, _, rfl⟩ := List.mem_map.1 hp
  simp

theorem chainGrid_entry (sea sp : Specie) {d : ℕ} (t : ℕ) {i : ℕ} (hi : i < d) :
    Spec.entry (chainGrid sea sp d t) i 0 0 = some (if i = t then sp else sea) := by
  unfold Spec.entry chainGrid
  rw [List.getElem?_map, List.getElem?_range hi]
  simp

theorem chainGrid_nums (sea sp : Specie) {d t : ℕ} :
    (chainGrid sea sp d t).flatten.flatten.map (·.Z) = (List.replicate d sea.Z).set t sp.Z := by
  have h : (chainGrid sea sp d t).flatten.flatten.map (·.Z) = (List.range d).map fun i => if i = t then sp.Z else sea.Z := by
    unfold chainGrid
    induction List.range d with
    | nil => rfl
    | cons a l ih =>
      simp only [List.map_cons, List.flatten_cons, List.flatten_append, List.map_append, ih]
      by_cases e : a = t <;> simp [e]
  rw [h]
  apply List.ext_getElem?
  intro i
  rw [List.getElem?_map, List.getElem?_set]
  rcases Nat.lt_or_ge i d with hi | hi
  · rw [List.getElem?_range hi, List.getElem?_replicate]
    by_cases e : t = i
    · subst e; simp [hi]
    · simp [e, Ne.symm e, hi]
  · rw [List.getElem?_eq_none (by simpa using hi), List.getElem?_replicate]
    by_cases e : t = i
    · subst e; simp [Nat.not_lt.2 hi]
    · simp [e, Nat.not_lt.2 hi]

/-- two chains with one speckle each are equivalent under the translations -/
theorem chainGrid_equiv (sea sp : Specie) {d s t : ℕ} (hs : s < d) (ht : t < d) :
    Spec.GridEquiv Spec.Cong d 1 1 (shiftOps d) (chainGrid sea sp d s) (chainGrid sea sp d t) := by
  have hd : 0 < d := by omega
  refine ⟨_, List.mem_map.2 ⟨(t + (d - s)) % d, List.mem_range.2 (Nat.mod_lt _ hd), rfl⟩, ?_⟩
  intro c b a c' b' a' hc hb ha hc' hb' ha' h
  obtain rfl : b = 0 := by omega
  obtain rfl : a = 0 := by omega
  obtain rfl : b' = 0 := by omega
  obtain rfl : a' = 0 := by omega
  rw [chainShift_image, site_chain, cong_chain hd, Nat.add_mod_mod] at h
  rw [chainGrid_entry _ _ _ hc, chainGrid_entry _ _ _ hc']
  have hiff : c = s ↔ c' = t := by
    constructor
    · rintro rfl
      rw [show c + (t + (d - c)) = t + d by omega, Nat.add_mod_right, Nat.mod_eq_of_lt ht, Nat.mod_eq_of_lt hc'] at h
      exact h.symm
    · rintro rfl
      have h' : (c + (d - s) + c') % d = (0 + c') % d := by
        rw [Nat.zero_add, ← h]; congr 1; omega
      have h2 : (c + (d - s)) % d = 0 % d := Nat.ModEq.add_right_cancel' c' h'
      rw [Nat.zero_mod] at h2
      obtain ⟨q, hq⟩ := Nat.dvd_of_mod_eq_zero h2
      rcases q with _ | _ | q
      · omega
      · omega
      · have : d * (q + 1 + 1) = d * q + d + d := by ring
        omega
  by_cases e : c = s
  · rw [if_pos e, if_pos (hiff.1 e)]
  · rw [if_neg e, if_neg fun h => e (hiff.2 h)]

/-- **C62 fails when two layers share their sort key.** On a chain of `d` layers (`size = (d, 1, 1)`), two of which have equal sort keys
(coordinates rounded to 5, then to 3 decimals), spglib's operations being exactly the `d` translations of the chain: with one speckle
`gen_nodup_cstru` yields at least two structures, all different, although every two of them are equivalent. -/
theorem C62_shared_key (lattice : M3 ℚ) (sea sp : Specie) (hsea : ReachableSpecie sea) (hsp : ReachableSpecie sp) (hne : sea ≠ sp)
    {d i j : ℕ} (hij : i < j) (hj : j < d) (hkey : keyN 5 ((i : ℚ) / d) = keyN 5 ((j : ℚ) / d)) :
    Spec.SymContract Spec.Cong (gridPos d 1 1) (shiftOps d) ∧
    ∃ out, genNodupCstru (fun _ => shiftOps d) lattice sea (d, 1, 1) sp 1 = .ok out ∧ 2 ≤ out.length ∧ out.Nodup ∧
      ∀ s ∈ out, ∀ t ∈ out, SpeckleGrid sea sp d 1 1 1 s.grid ∧ Spec.GridEquiv Spec.Cong d 1 1 (shiftOps d) s.grid t.grid := by
  have hd : 0 < d := by omega
  refine ⟨shiftOps_contract hd, ?_⟩
  have hZ : sea.Z ≠ sp.Z := fun h => hne (by rw [← (reachable_known hsea).2, ← (reachable_known hsp).2, h])
  -- the candidates
  have hcand : CStru.genSpeckle lattice sea (d, 1, 1) sp 1 =
      .ok ((List.range d).map fun t => CStru.mk lattice (chainGrid sea sp d t) d 1 1) := by
    unfold CStru.genSpeckle
    rw [sgGenSpeckle_eq sea sp hsea hsp hne d 1 1 1 (by omega), okBind, combinations_one, List.map_map]
    have hgrid : ∀ t, cubeMap specieOf (reshape3 d 1 1 (overwrite (List.replicate (d * 1 * 1) sea.Z) [t] sp.Z)) = chainGrid sea sp d t := by
      intro t
      have hl : (overwrite (List.replicate (d * 1 * 1) sea.Z) [t] sp.Z).length = d * 1 * 1 := by simp [overwrite]
      have hb := cubeMap_box specieOf (reshape3_box d 1 1 _ hl)
      have hflat : (cubeMap specieOf (reshape3 d 1 1 (overwrite (List.replicate (d * 1 * 1) sea.Z) [t] sp.Z))).flatten.flatten =
          (chainGrid sea sp d t).flatten.flatten := by
        rw [cubeMap_flatten, reshape3_flatten _ _ _ _ hl]
        have : overwrite (List.replicate (d * 1 * 1) sea.Z) [t] sp.Z = (chainGrid sea sp d t).flatten.flatten.map (·.Z) := by
          rw [chainGrid_nums]; simp [overwrite]
        rw [this, List.map_map]
        conv_rhs => rw [← List.map_id (chainGrid sea sp d t).flatten.flatten]
        refine List.map_congr_left fun x hx => ?_
        have : x = sp ∨ x = sea := by
          simp only [chainGrid, List.mem_flatten, List.mem_map, List.mem_range] at hx
          obtain ⟨_, ⟨_, ⟨k, _, rfl⟩, hr⟩, hx⟩ := hx
          simp only [List.mem_singleton] at hr
          subst hr
          simp only [List.mem_singleton] at hx
          subst hx
          by_cases e : k = t <;> simp [e]
        rcases this with rfl | rfl
        · exact (reachable_known hsp).2
        · exact (reachable_known hsea).2
      rw [← reshape3_of_box hb, hflat, reshape3_of_box (chainGrid_box sea sp d t)]
    rw [show (List.range (d * 1 * 1)).map ((fun c => cubeMap specieOf (reshape3 d 1 1 (overwrite (List.replicate (d * 1 * 1) sea.Z) c sp.Z))) ∘
      fun x => [x]) = (List.range d).map (chainGrid sea sp d) by
        rw [Nat.mul_one, Nat.mul_one]
        refine List.map_congr_left fun t _ => ?_
        have := hgrid t
        rw [Nat.mul_one, Nat.mul_one] at this
        exact this]
    rw [mapM_ok _ (fun c => CStru.mk lattice c d 1 1) _ fun c hc => ?_, List.map_map]
    · rfl
    · obtain ⟨t, _, rfl⟩ := List.mem_map.1 hc
      exact cstru_new lattice hd one_pos _ (chainGrid_box sea sp d t)
  -- the table
  have hnepos : gridPos d 1 1 ≠ [] := by
    intro h
    have := gridPos_length d 1 1
    rw [h, List.length_nil] at this
    omega
  let row : Spec.Op → List ℕ := fun op => lexsort3 (((gridPos d 1 1).map (applyOp op)).map (V3.map (keyN 5)))
  have hrows : (shiftOps d).mapM (fun op => idSeqN 5 ((gridPos d 1 1).map (applyOp op))) = .ok ((shiftOps d).map row) :=
    mapM_ok _ row _ fun op _ => by unfold idSeqN; rw [if_neg (by simpa using hnepos)]
  have hlt : ∀ p ∈ (shiftOps d).map row, ∀ x ∈ p, x < d * 1 * 1 := by
    intro p hp x hx
    obtain ⟨op, _, rfl⟩ := List.mem_map.1 hp
    have := (mem_lexsort3 _ _).1 hx
    simpa [gridPos_length] using this
  have hsb := sea_rect d 1 1 sea
  obtain ⟨cell, hc1, hc2, _⟩ := getCell_ok lattice hd one_pos one_pos _ hsb
  have hloop := genNodupLoop_eq ((shiftOps d).map row) hd one_pos one_pos hlt
    ((List.range d).map fun t => CStru.mk lattice (chainGrid sea sp d t) d 1 1) (fun s hs => by
      obtain ⟨t, _, rfl⟩ := List.mem_map.1 hs
      exact ⟨rfl, rfl, rfl, chainGrid_box sea sp d t⟩) []
  have hout : genNodupCstru (fun _ => shiftOps d) lattice sea (d, 1, 1) sp 1 = .ok (dedupL (fun s : CStru => atomSeqId s.nums)
      (fun s => isoNum atomSeqId ((shiftOps d).map row) s.nums) [] ((List.range d).map fun t => CStru.mk lattice (chainGrid sea sp d t) d 1 1)) := by
    unfold genNodupCstru
    simp only
    rw [cstru_new lattice hd one_pos _ hsb, okBind, hc1, okBind]
    unfold getPermutationCell
    rw [hc2, hrows, okBind, hcand, okBind]
    exact hloop
  have hnums : ∀ t, (CStru.mk lattice (chainGrid sea sp d t) d 1 1).nums = (List.replicate d sea.Z).set t sp.Z := fun t => chainGrid_nums sea sp
  have hset : ∀ s t, s < d → (List.replicate d sea.Z).set s sp.Z = (List.replicate d sea.Z).set t sp.Z → s = t := by
    intro s t hs h
    have := congrArg (fun l => l[s]?) h
    simp only [List.getElem?_set] at this
    by_contra hst
    rw [if_pos trivial, if_pos (by simpa using hs), if_neg (Ne.symm hst), List.getElem?_replicate, if_pos hs] at this
    exact hZ (by injection this with h; exact h.symm)
  have hsub := dedupL_sublist (fun s : CStru => atomSeqId s.nums) (fun s => isoNum atomSeqId ((shiftOps d).map row) s.nums) []
    ((List.range d).map fun t => CStru.mk lattice (chainGrid sea sp d t) d 1 1)
  refine ⟨_, hout, ?_, ?_, ?_⟩
  · -- at least two
    obtain ⟨e, rfl⟩ : ∃ e, d = e + 1 := ⟨d - 1, by omega⟩
    rw [List.range_succ_eq_map, List.map_cons, dedupL_cons, if_neg (by simp), List.length_cons]
    by_contra hlen
    have hnil : (dedupL (fun s : CStru => atomSeqId s.nums) (fun s => isoNum atomSeqId ((shiftOps (e + 1)).map row) s.nums)
      (isoNum atomSeqId ((shiftOps (e + 1)).map row) (CStru.mk lattice (chainGrid sea sp (e + 1) 0) (e + 1) 1 1).nums ++ [])
      (((List.range e).map Nat.succ).map fun t => CStru.mk lattice (chainGrid sea sp (e + 1) t) (e + 1) 1 1)) = [] := by
      rw [← List.length_eq_zero_iff]; omega
    have hall := dedupL_nil _ _ _ _ hnil
    -- the layers reached from layer 0
    have hreach : ∀ t < e + 1, ∃ k < e + 1, layersBelow (e + 1) k = t := by
      intro t ht
      rcases t with _ | t
      · refine ⟨0, ht, ?_⟩
        unfold layersBelow
        rw [List.countP_eq_zero]
        intro x hx hb
        obtain ⟨k, hk, rfl⟩ := List.mem_map.1 hx
        simp only [keyBelow, Bool.and_eq_true, decide_eq_true_eq] at hb
        refine hb.2 (lexLe_antisymm _ _ hb.1 ?_)
        rw [lexLe_iff]
        have h0 : keyN 5 0 = 0 := by decide +kernel
        have hk0 : 0 ≤ keyN 5 ((k : ℚ) / ((e + 1 : ℕ) : ℚ)) := by
          unfold keyN around
          have h1 : (0 : ℚ) ≤ mod1 ((rint ((k : ℚ) / ((e + 1 : ℕ) : ℚ) * 10 ^ 5) : ℚ) / 10 ^ 5) * 10 ^ 3 := by
            have := Int.fract_nonneg ((rint ((k : ℚ) / ((e + 1 : ℕ) : ℚ) * 10 ^ 5) : ℚ) / 10 ^ 5)
            have h2 : (0 : ℚ) ≤ mod1 ((rint ((k : ℚ) / ((e + 1 : ℕ) : ℚ) * 10 ^ 5) : ℚ) / 10 ^ 5) := this
            positivity
          have h2 := rint_mono h1
          rw [show rint 0 = 0 by exact_mod_cast rint_intCast 0] at h2
          have h3 : (0 : ℚ) ≤ (rint (mod1 ((rint ((k : ℚ) / ((e + 1 : ℕ) : ℚ) * 10 ^ 5) : ℚ) / 10 ^ 5) * 10 ^ 3) : ℚ) := by exact_mod_cast h2
          positivity
        unfold layerKey V3.map
        simp only [Nat.cast_zero, zero_div, h0]
        rcases hk0.lt_or_eq with h | h
        · exact .inl h
        · exact .inr ⟨h, .inr ⟨trivial, le_rfl⟩⟩
      · have hmem := hall (CStru.mk lattice (chainGrid sea sp (e + 1) (t + 1)) (e + 1) 1 1)
          (List.mem_map.2 ⟨t + 1, List.mem_map.2 ⟨t, List.mem_range.2 (by omega), rfl⟩, rfl⟩)
        rw [List.append_nil, hnums, hnums, isoNum, List.map_map, List.mem_map] at hmem
        obtain ⟨op, hop, he⟩ := hmem
        obtain ⟨k, hk, rfl⟩ := List.mem_map.1 hop
        rw [List.mem_range] at hk
        refine ⟨k, hk, ?_⟩
        have he' := atomSeqId_inj he
        rw [chainShift_gather hd hk] at he'
        exact (hset (t + 1) _ ht he'.symm).symm
    -- so no two layers have the same number of layers below
    have hsurj : (Finset.range (e + 1)) ⊆ (Finset.range (e + 1)).image (layersBelow (e + 1)) := by
      intro t ht
      obtain ⟨k, hk, h⟩ := hreach t (Finset.mem_range.1 ht)
      exact Finset.mem_image.2 ⟨k, Finset.mem_range.2 hk, h⟩
    have hcard : ((Finset.range (e + 1)).image (layersBelow (e + 1))).card = (Finset.range (e + 1)).card :=
      le_antisymm Finset.card_image_le (Finset.card_le_card hsurj)
    have hinj := Finset.card_image_iff.1 hcard
    have : i = j := hinj (by simp; omega) (by simp; omega) (by
      have : layerKey (e + 1) i = layerKey (e + 1) j := by unfold layerKey V3.map; simp only [hkey]
      unfold layersBelow; rw [this])
    omega
  · refine List.Nodup.sublist hsub (List.Nodup.map_on ?_ List.nodup_range)
    intro s hs t ht h
    refine hset s t (List.mem_range.1 hs) ?_
    rw [← hnums s, ← hnums t, h]
  · intro s hs t ht
    obtain ⟨a, ha, rfl⟩ := List.mem_map.1 (hsub.subset hs)
    obtain ⟨b, hb, rfl⟩ := List.mem_map.1 (hsub.subset ht)
    refine ⟨?_, chainGrid_equiv sea sp (List.mem_range.1 ha) (List.mem_range.1 hb)⟩
    obtain ⟨grids, g1, _, _, g4⟩ := (C06_gen_speckle sea sp hsea hsp hne d 1 1 1).1 (by omega)
    have hg := hcand
    unfold CStru.genSpeckle at hg
    rw [g1, okBind, mapM_ok _ (fun c => CStru.mk lattice c d 1 1) _ fun c hc => cstru_new lattice hd one_pos c ((g4 c).1 hc).1] at hg
    injection hg with hg
    have : CStru.mk lattice (chainGrid sea sp d a) d 1 1 ∈ grids.map fun c => CStru.mk lattice c d 1 1 := by
      rw [hg]; exact hsub.subset hs
    obtain ⟨c, hc, he⟩ := List.mem_map.1 this
    have : c = chainGrid sea sp d a := congrArg CStru.grid he
    rw [← this]
    exact (g4 c).1 hc

/-- **C62 (the bound is sharp).** With 991 layers it fails. -/
theorem C62_false_991 (lattice : M3 ℚ) (sea sp : Specie) (hsea : ReachableSpecie sea) (hsp : ReachableSpecie sp) (hne : sea ≠ sp) :
    Spec.SymContract Spec.Cong (gridPos 991 1 1) (shiftOps 991) ∧
    ∃ out, genNodupCstru (fun _ => shiftOps 991) lattice sea (991, 1, 1) sp 1 = .ok out ∧ 2 ≤ out.length ∧ out.Nodup ∧
      ∀ s ∈ out, ∀ t ∈ out, SpeckleGrid sea sp 991 1 1 1 s.grid ∧ Spec.GridEquiv Spec.Cong 991 1 1 (shiftOps 991) s.grid t.grid :=
  C62_shared_key lattice sea sp hsea hsp hne (i := 495) (j := 496) (by norm_num) (by norm_num) (by decide +kernel)

/-- **C62 (every larger size).** With more than 1000 layers it always fails. -/
theorem C62_false_large (lattice : M3 ℚ) (sea sp : Specie) (hsea : ReachableSpecie sea) (hsp : ReachableSpecie sp) (hne : sea ≠ sp)
    {d : ℕ} (hd : 1000 < d) :
    Spec.SymContract Spec.Cong (gridPos d 1 1) (shiftOps d) ∧
    ∃ out, genNodupCstru (fun _ => shiftOps d) lattice sea (d, 1, 1) sp 1 = .ok out ∧ 2 ≤ out.length ∧ out.Nodup ∧
      ∀ s ∈ out, ∀ t ∈ out, SpeckleGrid sea sp d 1 1 1 s.grid ∧ Spec.GridEquiv Spec.Cong d 1 1 (shiftOps d) s.grid t.grid := by
  rcases Nat.eq_or_lt_of_le hd with h | h
  · obtain rfl : d = 1001 := by omega
    exact C62_shared_key lattice sea sp hsea hsp hne (i := 496) (j := 497) (by norm_num) (by norm_num) (by decide +kernel)
  · let f : ℕ → ℕ := fun i => (rint (mod1 (around 5 ((i : ℚ) / d)) * 10 ^ 3)).toNat
    have hbd : ∀ x : ℚ, 0 ≤ rint (mod1 x * 10 ^ 3) ∧ rint (mod1 x * 10 ^ 3) ≤ 1000 := by
      intro x
      have h0 : 0 ≤ mod1 x := Int.fract_nonneg x
      have h1 : mod1 x < 1 := Int.fract_lt_one x
      have a := rint_mono (show (0 : ℚ) ≤ mod1 x * 10 ^ 3 by positivity)
      have b := rint_mono (show mod1 x * 10 ^ 3 ≤ ((1000 : ℤ) : ℚ) by push_cast; linarith)
      rw [rint_intCast] at b
      rw [show rint 0 = 0 by exact_mod_cast rint_intCast 0] at a
      exact ⟨a, b⟩
    obtain ⟨i, hi, j, hj, hij, he⟩ := Finset.exists_ne_map_eq_of_card_lt_of_maps_to (s := Finset.range d) (t := Finset.range 1001) (f := f)
      (by simpa using h) (fun i _ => by
        have := (hbd (around 5 ((i : ℚ) / d))).2
        simp only [f, Finset.coe_range, Set.mem_Iio]; omega)
    have hk : keyN 5 ((i : ℚ) / d) = keyN 5 ((j : ℚ) / d) := by
      have e : rint (mod1 (around 5 ((i : ℚ) / d)) * 10 ^ 3) = rint (mod1 (around 5 ((j : ℚ) / d)) * 10 ^ 3) := by
        have h1 := (hbd (around 5 ((i : ℚ) / d))).1
        have h2 := (hbd (around 5 ((j : ℚ) / d))).1
        simp only [f] at he
        omega
      unfold keyN
      unfold around at e ⊢
      rw [e]
    rw [Finset.mem_range] at hi hj
    rcases Nat.lt_or_gt_of_ne hij with h' | h'
    · exact C62_shared_key lattice sea sp hsea hsp hne h' hj hk
    · exact C62_shared_key lattice sea sp hsea hsp hne h' hi hk.symm

end Verif
