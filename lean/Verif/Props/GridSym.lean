import Verif.Model.SogenGrid
import Verif.Lemmas.KeyRows
import Verif.Lemmas.DedupNum
import Verif.Lemmas.TextIo
import Verif.Props.ScaffoldArr
import Mathlib.Tactic.Linarith
import Mathlib.Tactic.FieldSimp

/-! # C62, C63: symmetry-distinct grids (`gen_nodup_cstru`, `is_stru_equal`) -/

namespace Verif

/-! ### reduced coordinates of grid sites -/

/-- same site after the rounding of the code: coordinates rounded to `n` decimals, modulo 1, rounded to 3 decimals -/
def SameAt (n : ℕ) (x y : V3 ℚ) : Prop := V3.map (keyN n) x = V3.map (keyN n) y

theorem sameAt_equiv (n : ℕ) : Equivalence (SameAt n) := ⟨fun _ => rfl, fun h => h.symm, fun h1 h2 => h1.trans h2⟩

theorem keyN_add_int {n : ℕ} (hn : 0 < n) (x : ℚ) (z : ℤ) : keyN n (x + z) = keyN n x := by
  unfold keyN; rw [around_add_int n hn, mod1_add_int]

theorem keyN_cong {n : ℕ} (hn : 0 < n) (x y : V3 ℚ) (h : Spec.Cong x y) : V3.map (keyN n) x = V3.map (keyN n) y := by
  rw [Spec.cong_iff] at h
  obtain ⟨⟨a, ha⟩, ⟨b, hb⟩, ⟨c, hc⟩⟩ := h
  unfold V3.map
  rw [ha, hb, hc, keyN_add_int hn, keyN_add_int hn, keyN_add_int hn]

theorem rint_lt {x y : ℚ} (h : x + 1 < y) : rint x < rint y := by
  have h1 := abs_le.1 (rint_sub_le x)
  have h2 := abs_le.1 (rint_sub_le y)
  have : (rint x : ℚ) < rint y := by linarith [h1.1, h2.2]
  exact_mod_cast this

theorem keyN_lt {n : ℕ} (hn : 5 ≤ n) {d c c' : ℕ} (hd : d ≤ 990) (hc : c < c') (hc' : c' < d) :
    keyN n ((c : ℚ) / d) < keyN n ((c' : ℚ) / d) := by
  have hd0 : (0 : ℚ) < d := by exact_mod_cast (by omega : 0 < d)
  have hdq : (d : ℚ) ≤ 990 := by exact_mod_cast hd
  have hsmall : ∀ x, |x - around n x| ≤ 1 / 200000 := by
    intro x
    refine (around_close n x).trans ?_
    have : (10 : ℚ) ^ 5 ≤ 10 ^ n := pow_le_pow_right₀ (by norm_num) hn
    rw [div_le_div_iff₀ (by positivity) (by norm_num)]
    nlinarith
  have hstep : ∀ i j : ℕ, i < j → (i : ℚ) / d + 1 / 990 ≤ (j : ℚ) / d := by
    intro i j hij
    have h1 : (i : ℚ) + 1 ≤ j := by exact_mod_cast hij
    have h2 : (1 : ℚ) / 990 ≤ 1 / d := by
      rw [div_le_div_iff₀ (by norm_num) hd0]; linarith
    calc (i : ℚ) / d + 1 / 990 ≤ i / d + 1 / d := by linarith
      _ = (i + 1) / d := by ring
      _ ≤ j / d := by gcongr
  have hone : (d : ℚ) / d = 1 := by field_simp
  have hrange : ∀ i : ℕ, i < d → mod1 (around n ((i : ℚ) / d)) = around n ((i : ℚ) / d) := by
    intro i hi
    have h0 : 0 ≤ around n ((i : ℚ) / d) := by
      unfold around
      have h1 : (0 : ℚ) ≤ (i : ℚ) / d * 10 ^ n := by positivity
      have h2 := rint_mono h1
      rw [show rint 0 = 0 by exact_mod_cast rint_intCast 0] at h2
      have h3 : (0 : ℚ) ≤ (rint ((i : ℚ) / d * 10 ^ n) : ℚ) := by exact_mod_cast h2
      positivity
    have h1 : around n ((i : ℚ) / d) < 1 := by
      have := abs_le.1 (hsmall ((i : ℚ) / d))
      have h2 := hstep i d hi
      rw [hone] at h2
      linarith [this.1]
    unfold mod1
    rw [Int.floor_eq_zero_iff.2 ⟨h0, h1⟩]; simp
  unfold keyN
  rw [hrange c (by omega), hrange c' hc']
  unfold around at *
  have e1 := abs_le.1 (hsmall ((c : ℚ) / d))
  have e2 := abs_le.1 (hsmall ((c' : ℚ) / d))
  have e3 := hstep c c' hc
  rw [div_lt_div_iff_of_pos_right (by norm_num)]
  have : rint ((rint ((c : ℚ) / d * 10 ^ n) : ℚ) / 10 ^ n * 10 ^ 3) < rint ((rint ((c' : ℚ) / d * 10 ^ n) : ℚ) / 10 ^ n * 10 ^ 3) := by
    apply rint_lt
    linarith [e1.1, e1.2, e2.1, e2.2]
  exact_mod_cast this

/-- the positions listed by `get_cell` -/
def gridPos (d w l : ℕ) : List (V3 ℚ) := (yieldPosition d w l).map fun p => Spec.site d w l p.1 p.2.1 p.2.2

theorem yieldPosition_sorted (d w l : ℕ) : (yieldPosition d w l).Pairwise fun p q =>
    p.1 < q.1 ∨ (p.1 = q.1 ∧ (p.2.1 < q.2.1 ∨ (p.2.1 = q.2.1 ∧ p.2.2 < q.2.2))) := by
  unfold yieldPosition
  rw [List.pairwise_flatMap]
  refine ⟨fun c _ => ?_, ?_⟩
  · rw [List.pairwise_flatMap]
    refine ⟨fun b _ => ?_, ?_⟩
    · rw [List.pairwise_map]
      exact List.pairwise_lt_range.imp fun h => .inr ⟨rfl, .inr ⟨rfl, h⟩⟩
    · refine List.pairwise_lt_range.imp fun {x y} hxy => ?_
      intro p hp q hq
      obtain ⟨_, _, rfl⟩ := List.mem_map.1 hp
      obtain ⟨_, _, rfl⟩ := List.mem_map.1 hq
      exact .inr ⟨rfl, .inl hxy⟩
  · refine List.pairwise_lt_range.imp fun {x y} hxy => ?_
    intro p hp q hq
    simp only [List.mem_flatMap, List.mem_map] at hp hq
    obtain ⟨_, _, _, _, rfl⟩ := hp
    obtain ⟨_, _, _, _, rfl⟩ := hq
    exact .inl hxy

theorem gridPos_keys {n : ℕ} (hn : 5 ≤ n) {d w l : ℕ} (hd : d ≤ 990) (hw : w ≤ 990) (hl : l ≤ 990) :
    ((gridPos d w l).map (V3.map (keyN n))).Pairwise (fun a b => lexLe a b = true) ∧ ((gridPos d w l).map (V3.map (keyN n))).Nodup := by
  have key : ((gridPos d w l).map (V3.map (keyN n))).Pairwise (fun a b => lexLe a b = true ∧ a ≠ b) := by
    unfold gridPos
    rw [List.map_map, List.pairwise_map]
    refine (yieldPosition_sorted d w l).imp_of_mem ?_
    intro p q hp hq h
    rw [mem_yieldPosition] at hp hq
    simp only [Function.comp, V3.map, Spec.site]
    rw [lexLe_iff]
    rcases h with h | ⟨e, h | ⟨e', h⟩⟩
    · have := keyN_lt hn hd h hq.1
      exact ⟨.inl this, fun he => by have := congrArg Prod.fst he; simp only at this; linarith⟩
    · have := keyN_lt hn hw h hq.2.1
      exact ⟨.inr ⟨by rw [e], .inl this⟩, fun he => by
        have := congrArg (fun v : V3 ℚ => v.2.1) he; simp only at this; linarith⟩
    · have := keyN_lt hn hl h hq.2.2
      exact ⟨.inr ⟨by rw [e], .inr ⟨by rw [e'], this.le⟩⟩, fun he => by
        have := congrArg (fun v : V3 ℚ => v.2.2) he; simp only at this; linarith⟩
  exact ⟨key.imp fun h => h.1, key.imp fun h => h.2⟩

theorem gridPos_get (d w l c b a : ℕ) (hc : c < d) (hb : b < w) (ha : a < l) :
    (gridPos d w l)[(c * w + b) * l + a]? = some (Spec.site d w l c b a) := by
  unfold gridPos
  rw [List.getElem?_map, yieldPosition_get d w l c b a hc hb ha]; rfl

theorem gridPos_length (d w l : ℕ) : (gridPos d w l).length = d * w * l := by
  unfold gridPos
  rw [List.length_map, yieldPosition_length]

/-- every index of the flat list is the index of an entry -/
theorem gridPos_index {d w l i : ℕ} {x : V3 ℚ} (h : (gridPos d w l)[i]? = some x) :
    ∃ c b a, c < d ∧ b < w ∧ a < l ∧ i = (c * w + b) * l + a ∧ x = Spec.site d w l c b a := by
  have hi := (List.getElem?_eq_some_iff.1 h).1
  rw [gridPos_length] at hi
  have hl : 0 < l := Nat.pos_of_ne_zero (by rintro rfl; simp at hi)
  have hw : 0 < w := Nat.pos_of_ne_zero (by rintro rfl; simp at hi)
  have h1 : i / l < d * w := Nat.div_lt_of_lt_mul (by rw [Nat.mul_comm]; exact hi)
  have h2 : i / l / w < d := Nat.div_lt_of_lt_mul (by rw [Nat.mul_comm]; exact h1)
  have e : i = (i / l / w * w + i / l % w) * l + i % l := by
    rw [Nat.div_add_mod' (i / l) w, Nat.div_add_mod' i l]
  refine ⟨i / l / w, i / l % w, i % l, h2, Nat.mod_lt _ hw, Nat.mod_lt _ hl, e, ?_⟩
  have := gridPos_get d w l (i / l / w) (i / l % w) (i % l) h2 (Nat.mod_lt _ hw) (Nat.mod_lt _ hl)
  rw [← e, h] at this
  injection this

theorem gather_iff_carries {S : V3 ℚ → V3 ℚ → Prop} {d w l : ℕ} {g : Spec.Op} {p : List ℕ} (h : SameRow S (gridPos d w l) g p)
    {α} {A B : Cube α} (hA : Spec.Box d w l A) (hB : Spec.Box d w l B) :
    gather A.flatten.flatten p = B.flatten.flatten ↔ Spec.Carries S d w l g A B := by
  rw [gather_sameRow h (by rw [box_length hA, gridPos_length]) (by rw [box_length hB, gridPos_length])]
  constructor
  · intro hall c b a c' b' a' hc hb ha hc' hb' ha' hs
    have := hall _ _ _ _ (gridPos_get d w l c b a hc hb ha) (gridPos_get d w l c' b' a' hc' hb' ha') hs
    rwa [box_getElem? hA c b a hb ha, box_getElem? hB c' b' a' hb' ha'] at this
  · intro hall i j x y hx hy hs
    obtain ⟨c, b, a, hc, hb, ha, rfl, rfl⟩ := gridPos_index hx
    obtain ⟨c', b', a', hc', hb', ha', rfl, rfl⟩ := gridPos_index hy
    rw [box_getElem? hA c b a hb ha, box_getElem? hB c' b' a' hb' ha']
    exact hall c b a c' b' a' hc hb ha hc' hb' ha' hs

/-! ### the identifier of an atom sequence -/

theorem intStr_char (n : ℤ) : ∀ c ∈ intStr n, c ≠ ',' ∧ c ≠ ']' := by
  intro c hc
  unfold intStr at hc
  have hd : ∀ c, isDig c = true → c ≠ ',' ∧ c ≠ ']' := by
    intro c h
    constructor <;> rintro rfl <;> revert h <;> decide
  split at hc
  · rcases List.mem_cons.1 hc with rfl | hc
    · decide
    · exact hd c (natStr_dig _ c hc)
  · exact hd c (natStr_dig _ c hc)

theorem intStr_inj {m n : ℤ} (h : intStr m = intStr n) : m = n := by
  have h1 := parseFloat_intStr m
  rw [h, parseFloat_intStr n] at h1
  injection h1 with h1
  exact_mod_cast h1.symm

theorem append_sep_inj {s : Char} {a b x y : List Char} (ha : s ∉ a) (hb : s ∉ b) (h : a ++ s :: x = b ++ s :: y) : a = b ∧ x = y := by
  induction a generalizing b with
  | nil =>
    cases b with
    | nil => simpa using h
    | cons c b => simp only [List.nil_append, List.cons_append, List.cons.injEq] at h; exact absurd (by simp [h.1]) hb
  | cons c a ih =>
    cases b with
    | nil => simp only [List.nil_append, List.cons_append, List.cons.injEq] at h; exact absurd (by simp [h.1]) ha
    | cons c' b =>
      simp only [List.cons_append, List.cons.injEq] at h
      obtain ⟨h1, h2⟩ := ih (fun hs => ha (List.mem_cons_of_mem _ hs)) (fun hs => hb (List.mem_cons_of_mem _ hs)) h.2
      exact ⟨by rw [h.1, h1], h2⟩

theorem pyJoin_ints_inj : ∀ a b : List ℤ, pyJoin [',', ' '] (a.map intStr) = pyJoin [',', ' '] (b.map intStr) → a = b
  | [], [], _ => rfl
  | [], [n], h => absurd h.symm (intStr_ne n)
  | [], n :: m :: l, h => by simp [pyJoin] at h
  | [n], [], h => absurd h (intStr_ne n)
  | [n], [m], h => by rw [intStr_inj h]
  | [n], m :: m' :: l, h => by
    have : ',' ∈ intStr n := by
      have h' : intStr n = intStr m ++ [',', ' '] ++ pyJoin [',', ' '] ((m' :: l).map intStr) := h
      rw [h']; simp
    exact absurd rfl (intStr_char n _ this).1
  | n :: n' :: k, [], h => by simp [pyJoin] at h
  | n :: n' :: k, [m], h => by
    have : ',' ∈ intStr m := by
      have h' : intStr n ++ [',', ' '] ++ pyJoin [',', ' '] ((n' :: k).map intStr) = intStr m := h
      rw [← h']; simp
    exact absurd rfl (intStr_char m _ this).1
  | n :: n' :: k, m :: m' :: l, h => by
    have h' : intStr n ++ ',' :: (' ' :: pyJoin [',', ' '] ((n' :: k).map intStr)) =
        intStr m ++ ',' :: (' ' :: pyJoin [',', ' '] ((m' :: l).map intStr)) := by
      have h0 : intStr n ++ [',', ' '] ++ pyJoin [',', ' '] ((n' :: k).map intStr) =
        intStr m ++ [',', ' '] ++ pyJoin [',', ' '] ((m' :: l).map intStr) := h
      simpa using h0
    obtain ⟨h1, h2⟩ := append_sep_inj (fun hc => (intStr_char n _ hc).1 rfl) (fun hc => (intStr_char m _ hc).1 rfl) h'
    rw [List.cons.injEq] at h2
    rw [intStr_inj h1, pyJoin_ints_inj (n' :: k) (m' :: l) h2.2]

/-- different atom sequences have different identifiers -/
theorem atomSeqId_inj {a b : List ℤ} (h : atomSeqId a = atomSeqId b) : a = b := by
  unfold atomSeqId at h
  rw [List.cons.injEq] at h
  exact pyJoin_ints_inj a b (List.append_cancel_right h.2)

/-! ## C62 -/

/-- atomic numbers of a structure, as listed by `get_cell` -/
def CStru.nums (s : CStru) : List ℤ := s.grid.flatten.flatten.map (·.Z)

theorem getCell_ok (m : M3 ℚ) {d w l : ℕ} (hd : 0 < d) (hw : 0 < w) (hl : 0 < l) (grid : Cube Specie) (hb : Spec.Box d w l grid) :
    ∃ cell, (CStru.mk m grid d w l).getCell = .ok cell ∧ cell.positions = gridPos d w l ∧ cell.numbers = grid.flatten.flatten.map (·.Z) := by
  have harr : cubeToArray grid = .ok (cubeMap (·.Z) grid) := by
    unfold cubeToArray; rw [if_neg (box_size_pos hb hd hw hl)]
  refine ⟨_, by unfold CStru.getCell CStru.getArray; simp only [harr, okBind]; rfl, ?_, cubeMap_flatten _ _⟩
  unfold gridPos Spec.site
  refine List.map_congr_left fun p _ => ?_
  simp only [mul_one_div]

theorem updateIsosetStr_ok (numbers : List ℤ) (P : List (List ℕ)) (isoset : List (List Char))
    (hP : ∀ p ∈ P, ∀ i ∈ p, i < numbers.length) :
    ∃ s, updateIsosetStr isoset numbers P = .ok s ∧ ∀ k, k ∈ s ↔ k ∈ isoNum atomSeqId P numbers ++ isoset := by
  induction P generalizing isoset with
  | nil => exact ⟨isoset, rfl, by simp [isoNum]⟩
  | cons p P ih =>
    unfold updateIsosetStr
    rw [fancy_gather (hP p (by simp))]
    obtain ⟨s, h1, h2⟩ := ih (atomSeqId (gather numbers p) :: isoset) (fun q hq => hP q (List.mem_cons_of_mem _ hq))
    refine ⟨s, h1, fun k => ?_⟩
    rw [h2]; simp [isoNum, or_left_comm]

theorem genNodupLoop_eq (P : List (List ℕ)) {d w l : ℕ} (hd : 0 < d) (hw : 0 < w) (hl : 0 < l) (hP : ∀ p ∈ P, ∀ i ∈ p, i < d * w * l)
    (strus : List CStru) (hs : ∀ s ∈ strus, s.depth = d ∧ s.width = w ∧ s.length = l ∧ Spec.Box d w l s.grid) (seen : List (List Char)) :
    genNodupLoop P seen strus = .ok (dedupL (fun s => atomSeqId s.nums) (fun s => isoNum atomSeqId P s.nums) seen strus) := by
  induction strus generalizing seen with
  | nil => rfl
  | cons s rest ih =>
    have ih' := ih (fun t ht => hs t (List.mem_cons_of_mem _ ht))
    obtain ⟨rfl, rfl, rfl, hb⟩ := hs s (by simp)
    obtain ⟨cell, h1, _, h2⟩ := getCell_ok s.m hd hw hl s.grid hb
    have h1' : s.getCell = .ok cell := h1
    unfold genNodupLoop
    rw [h1', okBind, h2, dedupL_cons]
    change (if atomSeqId s.nums ∈ seen then _ else _) = _
    split
    · exact ih' seen
    · obtain ⟨t, e1, e2⟩ := updateIsosetStr_ok s.nums P seen (by
        intro p hp i hi
        rw [CStru.nums, List.length_map, box_length hb]; exact hP p hp i hi)
      change (updateIsosetStr seen s.nums P >>= _) = _
      rw [e1, okBind, ih' t, okBind, dedupL_congr_seen _ _ t _ e2]
      rfl

theorem dedupL_map {A B K : Type _} [DecidableEq K] (f : A → B) (key : B → K) (iso : B → List K) (seen : List K) (l : List A) :
    (dedupL (fun a => key (f a)) (fun a => iso (f a)) seen l).map f = dedupL key iso seen (l.map f) := by
  induction l generalizing seen with
  | nil => rfl
  | cons a l ih =>
    rw [List.map_cons, dedupL_cons, dedupL_cons]
    split
    · exact ih seen
    · rw [List.map_cons, ih]

/-- the key contract on the sites of a grid gives a permutation group -/
theorem grid_rows {n : ℕ} (hn : 5 ≤ n) {d w l : ℕ} (hd : d ≤ 990) (hw : w ≤ 990) (hl : l ≤ 990) (hne : gridPos d w l ≠ [])
    (ops : List Spec.Op) (hops : Spec.SymContract (SameAt n) (gridPos d w l) ops) :
    ∃ rows, ops.mapM (fun op => idSeqN n ((gridPos d w l).map (applyOp op))) = .ok rows ∧
      List.Forall₂ (SameRow (SameAt n) (gridPos d w l)) ops rows ∧ PermGroup (d * w * l) rows := by
  obtain ⟨k1, k2⟩ := gridPos_keys hn hd hw hl
  obtain ⟨rows, h1, h2⟩ := mapM_forall₂ (fun op => idSeqN n ((gridPos d w l).map (applyOp op)))
    (SameRow (SameAt n) (gridPos d w l)) ops (fun g hg => ⟨_, by
      unfold idSeqN; rw [if_neg (by simpa using hne)], keyRow_spec k1 k2 (hops.maps g hg) (hops.inj g hg)⟩)
  refine ⟨rows, h1, h2, ?_⟩
  have := sameRow_group (sameAt_equiv n) hops h2
  rwa [gridPos_length] at this

theorem exact_contract {n : ℕ} (hn : 5 ≤ n) {d w l : ℕ} (hd : d ≤ 990) (hw : w ≤ 990) (hl : l ≤ 990) (ops : List Spec.Op)
    (hops : Spec.SymContract Spec.Cong (gridPos d w l) ops) : Spec.SymContract (SameAt n) (gridPos d w l) ops ∧
      ∀ g ∈ ops, ∀ x ∈ gridPos d w l, ∀ y ∈ gridPos d w l, (SameAt n (g.image x) y ↔ Spec.Cong (g.image x) y) := by
  obtain ⟨k1, k2⟩ := gridPos_keys hn hd hw hl
  have hκ := keyN_cong (n := n) (by omega)
  have key := fun g (hg : g ∈ ops) => key_of_exact hκ k2 (hops.maps g hg) (hops.inj g hg)
  refine ⟨⟨fun g hg => (key g hg).1, fun g hg => (key g hg).2.1, ?_, ?_, ?_⟩, fun g hg => (key g hg).2.2⟩
  · obtain ⟨g, hg, hx⟩ := hops.one
    exact ⟨g, hg, fun x hxm => hκ _ _ (hx x hxm)⟩
  · intro f hf g hg
    obtain ⟨k, hk', hh⟩ := hops.mul f hf g hg
    refine ⟨k, hk', fun x hx y hy z hz h1 h2 => ?_⟩
    exact ((key k hk').2.2 x hx z hz).2 (hh x hx y hy z hz (((key g hg).2.2 x hx y hy).1 h1) (((key f hf).2.2 y hy z hz).1 h2))
  · intro f hf
    obtain ⟨g, hg, hh⟩ := hops.inv f hf
    exact ⟨g, hg, fun x hx y hy h1 => ((key g hg).2.2 y hy x hx).2 (hh x hx y hy (((key f hf).2.2 x hx y hy).1 h1))⟩

/-- the decorated grids `gen_nodup_cstru` has to cover -/
def SpeckleGrid (sea sp : Specie) (d w l num : ℕ) (c : Cube Specie) : Prop :=
  Spec.Box d w l c ∧ (∀ x ∈ c.flatten.flatten, x = sea ∨ x = sp) ∧ c.flatten.flatten.count sp = num

/-- **C62.** For every lattice, every size up to 990 in each direction and every number of speckles: `gen_nodup_cstru` yields structures
with the given lattice whose grids have exactly `num` speckles in a sea, every such grid is equivalent to one of them under the
operations spglib finds for the grid without speckles, and no two of them are equivalent. Contract on spglib: its operations permute the sites and form a
group, up to the rounding the code itself applies (`SameAt 5`; see `C62_exact` for exact congruence). -/
theorem C62_gen_nodup (spg : SpgCell → List Spec.Op) (lattice : M3 ℚ) (sea sp : Specie) (hsea : ReachableSpecie sea)
    (hsp : ReachableSpecie sp) (hne : sea ≠ sp) (d w l num : ℕ) (hd : 0 < d) (hw : 0 < w) (hl : 0 < l)
    (hd' : d ≤ 990) (hw' : w ≤ 990) (hl' : l ≤ 990) (mother : CStru) (cell : SpgCell)
    (hm : CStru.new lattice (seaCube d w l sea) = .ok mother) (hcell : mother.getCell = .ok cell)
    (hspg : Spec.SymContract (SameAt 5) cell.positions (spg cell)) :
    ∃ out, genNodupCstru spg lattice sea (d, w, l) sp num = .ok out ∧
      (∀ s ∈ out, s.m = lattice ∧ s.depth = d ∧ s.width = w ∧ s.length = l ∧ SpeckleGrid sea sp d w l num s.grid) ∧
      (∀ c, SpeckleGrid sea sp d w l num c → ∃ s ∈ out, Spec.GridEquiv (SameAt 5) d w l (spg cell) s.grid c) ∧
      out.Pairwise (fun s t => ¬ Spec.GridEquiv (SameAt 5) d w l (spg cell) s.grid t.grid ∧
        ¬ Spec.GridEquiv (SameAt 5) d w l (spg cell) t.grid s.grid) := by
  have hsb := sea_rect d w l sea
  have hmo := cstru_new lattice hd hw _ hsb
  rw [hm] at hmo
  injection hmo with hmo
  subst hmo
  obtain ⟨cell', hc1, hc2, _⟩ := getCell_ok lattice hd hw hl _ hsb
  rw [hcell] at hc1
  injection hc1 with hc1
  subst hc1
  rw [hc2] at hspg
  have hnepos : gridPos d w l ≠ [] := by
    intro h
    have := gridPos_length d w l
    rw [h, List.length_nil] at this
    have : 0 < d * w * l := by positivity
    omega
  obtain ⟨rows, r1, r2, hG⟩ := grid_rows (n := 5) le_rfl hd' hw' hl' hnepos (spg cell) hspg
  obtain ⟨grids, g1, _, _, g4⟩ := (C06_gen_speckle sea sp hsea hsp hne d w l num).1 (by positivity)
  have hgs : CStru.genSpeckle lattice sea (d, w, l) sp num = .ok (grids.map fun c => CStru.mk lattice c d w l) := by
    unfold CStru.genSpeckle
    rw [g1, okBind]
    exact mapM_ok _ _ _ fun c hc => cstru_new lattice hd hw c ((g4 c).1 hc).1
  have hstrus : ∀ s ∈ grids.map (fun c => CStru.mk lattice c d w l),
      s.m = lattice ∧ s.depth = d ∧ s.width = w ∧ s.length = l ∧ SpeckleGrid sea sp d w l num s.grid := by
    intro s hs
    obtain ⟨c, hc, rfl⟩ := List.mem_map.1 hs
    exact ⟨rfl, rfl, rfl, rfl, (g4 c).1 hc⟩
  have hloop := genNodupLoop_eq rows hd hw hl (fun p hp => (hG.perm p hp).lt) (grids.map fun c => CStru.mk lattice c d w l)
    (fun s hs => by
      obtain ⟨_, h1, h2, h3, h4⟩ := hstrus s hs
      exact ⟨h1, h2, h3, h4.1⟩) []
  have hout : genNodupCstru spg lattice sea (d, w, l) sp num = .ok (dedupL (fun s : CStru => atomSeqId s.nums)
      (fun s => isoNum atomSeqId rows s.nums) [] (grids.map fun c => CStru.mk lattice c d w l)) := by
    unfold genNodupCstru
    simp only
    rw [hm, okBind, hcell, okBind]
    unfold getPermutationCell
    rw [hc2, r1, okBind, hgs, okBind]
    exact hloop
  have hsub := dedupL_sublist (fun s : CStru => atomSeqId s.nums) (fun s => isoNum atomSeqId rows s.nums) []
    (grids.map fun c => CStru.mk lattice c d w l)
  have hlen : ∀ m ∈ (grids.map fun c => CStru.mk lattice c d w l).map CStru.nums, m.length = d * w * l := by
    intro m hm
    obtain ⟨s, hs, rfl⟩ := List.mem_map.1 hm
    rw [CStru.nums, List.length_map, box_length (hstrus s hs).2.2.2.2.1]
  have hT := dedupNum_transversal atomSeqId hG ((grids.map fun c => CStru.mk lattice c d w l).map CStru.nums) hlen
    (fun a _ b _ h => atomSeqId_inj h)
  rw [← dedupL_map CStru.nums] at hT
  -- relation on numbers = relation on grids
  have hrel : ∀ A B : Cube Specie, SpeckleGrid sea sp d w l num A → SpeckleGrid sea sp d w l num B →
      (Rel rows (A.flatten.flatten.map (·.Z)) (B.flatten.flatten.map (·.Z)) ↔ Spec.GridEquiv (SameAt 5) d w l (spg cell) A B) := by
    intro A B hA hB
    have hre : ∀ C : Cube Specie, SpeckleGrid sea sp d w l num C → ∀ x ∈ C.flatten.flatten, ReachableSpecie x := by
      intro C hC x hx
      rcases hC.2.1 x hx with rfl | rfl
      · exact hsea
      · exact hsp
    have hinjZ : ∀ p ∈ rows, (gather (A.flatten.flatten.map (·.Z)) p = B.flatten.flatten.map (·.Z) ↔
        gather A.flatten.flatten p = B.flatten.flatten) := by
      intro p hp
      rw [gather_map]
      constructor
      · intro h
        have h' := congrArg (List.map specieOf) h
        rw [List.map_map, List.map_map] at h'
        have hid : ∀ L : List Specie, (∀ x ∈ L, ReachableSpecie x) → L.map (specieOf ∘ (·.Z)) = L := by
          intro L hL
          conv_rhs => rw [← List.map_id L]
          exact List.map_congr_left fun x hx => (reachable_known (hL x hx)).2
        rw [hid _ (fun x hx => hre A hA x (by
          have hpp : IsPerm A.flatten.flatten.length p := by rw [box_length hA.1]; exact hG.perm p hp
          exact (gather_perm hpp).subset hx)), hid _ (hre B hB)] at h'
        exact h'
      · intro h; rw [h]
    constructor
    · rintro ⟨p, hp, h⟩
      obtain ⟨g, hg, hR⟩ := forall₂_mem_right r2 hp
      exact ⟨g, hg, (gather_iff_carries hR hA.1 hB.1).1 ((hinjZ p hp).1 h)⟩
    · rintro ⟨g, hg, h⟩
      obtain ⟨p, hp, hR⟩ := forall₂_mem_left r2 hg
      exact ⟨p, hp, (hinjZ p hp).2 ((gather_iff_carries hR hA.1 hB.1).2 h)⟩
  refine ⟨_, hout, fun s hs => hstrus s (hsub.subset hs), ?_, ?_⟩
  · intro c hc
    obtain ⟨m, hm', hr⟩ := hT.2.1 (c.flatten.flatten.map (·.Z)) (List.mem_map.2 ⟨CStru.mk lattice c d w l,
      List.mem_map.2 ⟨c, (g4 c).2 hc, rfl⟩, rfl⟩)
    obtain ⟨s, hs, rfl⟩ := List.mem_map.1 hm'
    exact ⟨s, hs, (hrel _ _ (hstrus s (hsub.subset hs)).2.2.2.2 hc).1 hr⟩
  · have hp := hT.2.2
    rw [List.pairwise_map] at hp
    refine hp.imp_of_mem ?_
    intro s t hs ht h
    have h1 := (hstrus s (hsub.subset hs)).2.2.2.2
    have h2 := (hstrus t (hsub.subset ht)).2.2.2.2
    exact ⟨fun h' => h.1 ((hrel _ _ h1 h2).2 h'), fun h' => h.2 ((hrel _ _ h2 h1).2 h')⟩

theorem carries_congr {S S' : V3 ℚ → V3 ℚ → Prop} {d w l : ℕ} {g : Spec.Op}
    (h : ∀ x ∈ gridPos d w l, ∀ y ∈ gridPos d w l, (S (g.image x) y ↔ S' (g.image x) y)) {α} (A B : Cube α) :
    Spec.Carries S d w l g A B ↔ Spec.Carries S' d w l g A B := by
  have hmem : ∀ c b a, c < d → b < w → a < l → Spec.site d w l c b a ∈ gridPos d w l :=
    fun c b a hc hb ha => List.mem_of_getElem? (gridPos_get d w l c b a hc hb ha)
  constructor
  · intro H c b a c' b' a' hc hb ha hc' hb' ha' hs
    exact H c b a c' b' a' hc hb ha hc' hb' ha' ((h _ (hmem c b a hc hb ha) _ (hmem c' b' a' hc' hb' ha')).2 hs)
  · intro H c b a c' b' a' hc hb ha hc' hb' ha' hs
    exact H c b a c' b' a' hc hb ha hc' hb' ha' ((h _ (hmem c b a hc hb ha) _ (hmem c' b' a' hc' hb' ha')).1 hs)

/-- **C62 (exact symmetry).** The same with operations that permute the sites exactly, modulo lattice translations. -/
theorem C62_exact (spg : SpgCell → List Spec.Op) (lattice : M3 ℚ) (sea sp : Specie) (hsea : ReachableSpecie sea)
    (hsp : ReachableSpecie sp) (hne : sea ≠ sp) (d w l num : ℕ) (hd : 0 < d) (hw : 0 < w) (hl : 0 < l)
    (hd' : d ≤ 990) (hw' : w ≤ 990) (hl' : l ≤ 990) (mother : CStru) (cell : SpgCell)
    (hm : CStru.new lattice (seaCube d w l sea) = .ok mother) (hcell : mother.getCell = .ok cell)
    (hspg : Spec.SymContract Spec.Cong cell.positions (spg cell)) :
    ∃ out, genNodupCstru spg lattice sea (d, w, l) sp num = .ok out ∧
      (∀ s ∈ out, s.m = lattice ∧ s.depth = d ∧ s.width = w ∧ s.length = l ∧ SpeckleGrid sea sp d w l num s.grid) ∧
      (∀ c, SpeckleGrid sea sp d w l num c → ∃ s ∈ out, Spec.GridEquiv Spec.Cong d w l (spg cell) s.grid c) ∧
      out.Pairwise (fun s t => ¬ Spec.GridEquiv Spec.Cong d w l (spg cell) s.grid t.grid ∧
        ¬ Spec.GridEquiv Spec.Cong d w l (spg cell) t.grid s.grid) := by
  have hsb := sea_rect d w l sea
  have hpos : cell.positions = gridPos d w l := by
    have hmo := cstru_new lattice hd hw _ hsb
    rw [hm] at hmo
    injection hmo with hmo
    subst hmo
    obtain ⟨cell', hc1, hc2, _⟩ := getCell_ok lattice hd hw hl _ hsb
    rw [hcell] at hc1
    injection hc1 with hc1
    subst hc1
    exact hc2
  rw [hpos] at hspg
  obtain ⟨hk, hiff⟩ := exact_contract (n := 5) le_rfl hd' hw' hl' (spg cell) hspg
  rw [← hpos] at hk
  have hE : ∀ A B : Cube Specie, Spec.GridEquiv (SameAt 5) d w l (spg cell) A B ↔ Spec.GridEquiv Spec.Cong d w l (spg cell) A B :=
    fun A B => exists_congr fun g => and_congr_right fun hg => carries_congr (hiff g hg) A B
  obtain ⟨out, o1, o2, o3, o4⟩ := C62_gen_nodup spg lattice sea sp hsea hsp hne d w l num hd hw hl hd' hw' hl' mother cell hm hcell hk
  simp only [hE] at o3 o4
  exact ⟨out, o1, o2, o3, o4⟩

/-! ## C63 -/

/-- What is assumed about `str` of an integer array: up to 1000 entries everything is printed (so the text determines the array); beyond
that only the first three and the last three entries are printed. -/
structure NumpyStr (render : List ℤ → List Char) : Prop where
  full : ∀ a b : List ℤ, a.length ≤ 1000 → b.length ≤ 1000 → render a = render b → a = b
  summary : ∀ a b : List ℤ, 1000 < a.length → 1000 < b.length → a.take 3 = b.take 3 →
    a.drop (a.length - 3) = b.drop (b.length - 3) → render a = render b

theorem foldlM_any {α} (f : α → Py (List Char)) (g : α → List Char) (x : List Char) (l : List α) (h : ∀ a ∈ l, f a = .ok (g a)) (b : Bool) :
    l.foldlM (fun isEq a => do
      let id ← f a
      return if id = x then true else isEq) b = .ok (b || l.any fun a => decide (g a = x)) := by
  induction l generalizing b with
  | nil => simp [pure, Except.pure]
  | cons a l ih =>
    rw [List.foldlM_cons, h a (by simp), okBind]
    change (List.foldlM _ (if g a = x then true else b) l) = _
    rw [ih (fun c hc => h c (List.mem_cons_of_mem _ hc)), List.any_cons]
    by_cases e : g a = x <;> simp [e]

theorem getIdSeq_ok (render : List ℤ → List Char) {pos : List (V3 ℚ)} {nums : List ℤ} (hne : pos ≠ []) (hl : nums.length = pos.length) :
    getIdSeq render pos nums = .ok (render (gather nums (lexsort3 (pos.map (V3.map (keyN 10)))))) := by
  unfold getIdSeq idSeqN
  rw [if_neg hne, okBind, fancy_gather (by
    intro i hi
    rw [mem_lexsort3, List.length_map] at hi
    omega), okBind]
  rfl

/-- what the function computes, on grids -/
theorem isStruEqual_core (render : List ℤ → List Char) (m m' : M3 ℚ) {d w l : ℕ} (hd : 0 < d) (hw : 0 < w) (hl : 0 < l)
    (hd' : d ≤ 990) (hw' : w ≤ 990) (hl' : l ≤ 990) (A B : Cube Specie) (hA : Spec.Box d w l A) (hB : Spec.Box d w l B) (ops : List Spec.Op) :
    isStruEqual render (CStru.mk m A d w l) (CStru.mk m' B d w l) ops =
      .ok (ops.any fun op => decide (render (gather (B.flatten.flatten.map (·.Z))
        (lexsort3 (((gridPos d w l).map (applyOp op)).map (V3.map (keyN 10))))) = render (A.flatten.flatten.map (·.Z)))) := by
  obtain ⟨ca, a1, a2, a3⟩ := getCell_ok m hd hw hl A hA
  obtain ⟨cb, b1, b2, b3⟩ := getCell_ok m' hd hw hl B hB
  have hnepos : gridPos d w l ≠ [] := by
    intro h
    have := gridPos_length d w l
    rw [h, List.length_nil] at this
    have : 0 < d * w * l := by positivity
    omega
  have hla : (A.flatten.flatten.map (·.Z)).length = (gridPos d w l).length := by rw [List.length_map, box_length hA, gridPos_length]
  have hlb : (B.flatten.flatten.map (·.Z)).length = (gridPos d w l).length := by rw [List.length_map, box_length hB, gridPos_length]
  unfold isStruEqual
  rw [a1, okBind, b1, okBind, a2, a3, b2, b3, getIdSeq_ok render hnepos hla, okBind,
    lexsort3_of_sorted _ (gridPos_keys (n := 10) (by omega) hd' hw' hl').1, List.length_map, ← hla, gather_range]
  have := foldlM_any (fun op => getIdSeq render ((gridPos d w l).map (applyOp op)) (B.flatten.flatten.map (·.Z)))
    (fun op => render (gather (B.flatten.flatten.map (·.Z)) (lexsort3 (((gridPos d w l).map (applyOp op)).map (V3.map (keyN 10))))))
    (render (A.flatten.flatten.map (·.Z))) ops
    (fun op _ => getIdSeq_ok render (by simpa using hnepos) (by rw [hlb, List.length_map])) false
  rw [Bool.false_or] at this
  exact this

/-- **C63 (up to 1000 sites).** For two grids of the same size, each dimension at most 990 and at most 1000 sites in total, and operations
that permute the sites (up to the rounding the code applies): `is_stru_equal(A, B, ops)` is True iff some operation carries the decorated grid `B` onto `A`. Missing from
the full claim: more than 1000 sites, where it is false (`C63_false`). -/
theorem C63_equal_partial (render : List ℤ → List Char) (hr : NumpyStr render) (m m' : M3 ℚ) {d w l : ℕ} (hd : 0 < d) (hw : 0 < w) (hl : 0 < l)
    (hd' : d ≤ 990) (hw' : w ≤ 990) (hl' : l ≤ 990) (hsz : d * w * l ≤ 1000) (A B : Cube Specie) (hA : Spec.Box d w l A)
    (hB : Spec.Box d w l B) (hAr : ∀ x ∈ A.flatten.flatten, ReachableSpecie x) (hBr : ∀ x ∈ B.flatten.flatten, ReachableSpecie x)
    (ops : List Spec.Op)
    (maps : ∀ g ∈ ops, ∀ x ∈ gridPos d w l, ∃ y ∈ gridPos d w l, SameAt 10 (g.image x) y)
    (inj : ∀ g ∈ ops, ∀ x ∈ gridPos d w l, ∀ y ∈ gridPos d w l, SameAt 10 (g.image x) (g.image y) → x = y) :
    ∃ sA sB r, CStru.new m A = .ok sA ∧ CStru.new m' B = .ok sB ∧ isStruEqual render sA sB ops = .ok r ∧
      (r = true ↔ Spec.GridEquiv (SameAt 10) d w l ops B A) := by
  refine ⟨_, _, _, cstru_new m hd hw A hA, cstru_new m' hd hw B hB,
    isStruEqual_core render m m' hd hw hl hd' hw' hl' A B hA hB ops, ?_⟩
  obtain ⟨k1, k2⟩ := gridPos_keys (n := 10) (by omega) hd' hw' hl'
  rw [List.any_eq_true]
  unfold Spec.GridEquiv
  refine exists_congr fun g => and_congr_right fun hg => ?_
  have hrow : SameRow (SameAt 10) (gridPos d w l) g _ := keyRow_spec k1 k2 (maps g hg) (inj g hg)
  rw [decide_eq_true_eq, ← gather_iff_carries hrow hB hA]
  have hperm : IsPerm B.flatten.flatten.length (lexsort3 (((gridPos d w l).map (applyOp g)).map (V3.map (keyN 10)))) := by
    have := hrow.1
    rwa [gridPos_length, ← box_length hB] at this
  have hid : ∀ L : List Specie, (∀ x ∈ L, ReachableSpecie x) → L.map (specieOf ∘ (·.Z)) = L := by
    intro L hL
    conv_rhs => rw [← List.map_id L]
    exact List.map_congr_left fun x hx => (reachable_known (hL x hx)).2
  rw [gather_map]
  clear hrow
  generalize lexsort3 (((gridPos d w l).map (applyOp g)).map (V3.map (keyN 10))) = row at hperm ⊢
  constructor
  · intro h
    have h1 := hr.full _ _ (by rw [List.length_map, (gather_perm hperm).length_eq, box_length hB]; exact hsz)
      (by rw [List.length_map, box_length hA]; exact hsz) h
    have h2 := congrArg (List.map specieOf) h1
    rw [List.map_map, List.map_map, hid _ (fun x hx => hBr x ((gather_perm hperm).subset hx)), hid _ hAr] at h2
    exact h2
  · intro h; rw [h]

/-- **C63 is false beyond 1000 sites**: any two grids that agree in the first three and the last three sites are reported equal as soon
as the identity is among the operations, whatever the other sites hold. -/
theorem C63_false (render : List ℤ → List Char) (hr : NumpyStr render) (m m' : M3 ℚ) {d w l : ℕ} (hd : 0 < d) (hw : 0 < w) (hl : 0 < l)
    (hd' : d ≤ 990) (hw' : w ≤ 990) (hl' : l ≤ 990) (hsz : 1000 < d * w * l) (A B : Cube Specie) (hA : Spec.Box d w l A)
    (hB : Spec.Box d w l B) (ops : List Spec.Op) (hone : (((1, 0, 0), (0, 1, 0), (0, 0, 1)), (0, 0, 0)) ∈ ops)
    (h1 : A.flatten.flatten.take 3 = B.flatten.flatten.take 3)
    (h2 : A.flatten.flatten.drop (d * w * l - 3) = B.flatten.flatten.drop (d * w * l - 3)) :
    isStruEqual render (CStru.mk m A d w l) (CStru.mk m' B d w l) ops = .ok true := by
  rw [isStruEqual_core render m m' hd hw hl hd' hw' hl' A B hA hB ops]
  congr 1
  rw [List.any_eq_true]
  refine ⟨_, hone, ?_⟩
  rw [decide_eq_true_eq]
  have hid : (gridPos d w l).map (applyOp (((1, 0, 0), (0, 1, 0), (0, 0, 1)), (0, 0, 0))) = gridPos d w l := by
    conv_rhs => rw [← List.map_id (gridPos d w l)]
    refine List.map_congr_left fun x _ => ?_
    rw [applyOp_eq]
    unfold Spec.Op.image
    ext <;> simp
  rw [hid, lexsort3_of_sorted _ (gridPos_keys (n := 10) (by omega) hd' hw' hl').1, List.length_map]
  have hlb : (B.flatten.flatten.map (·.Z)).length = (gridPos d w l).length := by rw [List.length_map, box_length hB, gridPos_length]
  rw [← hlb, gather_range]
  refine hr.summary _ _ ?_ ?_ ?_ ?_
  · rw [List.length_map, box_length hB]; exact hsz
  · rw [List.length_map, box_length hA]; exact hsz
  · rw [← List.map_take, ← List.map_take, h1]
  · rw [List.length_map, List.length_map, box_length hB, box_length hA, ← List.map_drop, ← List.map_drop, h2]

/-! ## Non-vacuity -/

/-- a rendering with the assumed properties -/
def exRender (a : List ℤ) : List Char := if a.length ≤ 1000 then atomSeqId a else atomSeqId (a.take 3 ++ a.drop (a.length - 3))

theorem exRender_ok : NumpyStr exRender := by
  constructor
  · intro a b ha hb h
    unfold exRender at h
    rw [if_pos ha, if_pos hb] at h
    exact atomSeqId_inj h
  · intro a b ha hb h1 h2
    unfold exRender
    rw [if_neg (by omega), if_neg (by omega), h1, h2]

/-- identity and the exchange of the two halves -/
def exGridOps : List Spec.Op := [(((1, 0, 0), (0, 1, 0), (0, 0, 1)), (0, 0, 0)), (((1, 0, 0), (0, 1, 0), (0, 0, 1)), (0, 1 / 2, 0))]

example : genNodupCstru (fun _ => exGridOps) ((1, 0, 0), (0, 1, 0), (0, 0, 1)) .ghost (1, 2, 2) exTi 1 =
    .ok [⟨((1, 0, 0), (0, 1, 0), (0, 0, 1)), [[[exTi, .ghost], [.ghost, .ghost]]], 1, 2, 2⟩,
      ⟨((1, 0, 0), (0, 1, 0), (0, 0, 1)), [[[.ghost, exTi], [.ghost, .ghost]]], 1, 2, 2⟩] := by decide +kernel

instance : DecidableRel (SameAt 5) := fun x y => by unfold SameAt; infer_instance

set_option maxRecDepth 100000 in
example : Spec.SymContract (SameAt 5) (gridPos 1 2 2) exGridOps := by
  constructor <;> decide +kernel

example : isStruEqual exRender ⟨((1, 0, 0), (0, 1, 0), (0, 0, 1)), [[[exTi, .ghost], [.ghost, .ghost]]], 1, 2, 2⟩
    ⟨((1, 0, 0), (0, 1, 0), (0, 0, 1)), [[[.ghost, .ghost], [exTi, .ghost]]], 1, 2, 2⟩ exGridOps = .ok true := by decide +kernel

example : isStruEqual exRender ⟨((1, 0, 0), (0, 1, 0), (0, 0, 1)), [[[exTi, .ghost], [.ghost, .ghost]]], 1, 2, 2⟩
    ⟨((1, 0, 0), (0, 1, 0), (0, 0, 1)), [[[.ghost, exTi], [.ghost, .ghost]]], 1, 2, 2⟩ exGridOps = .ok false := by decide +kernel

end Verif
