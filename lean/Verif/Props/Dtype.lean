import Verif.Model.Dtype
import Verif.Spec.Dtype
import Verif.Spec.Files
import Verif.Props.Dedup
import Mathlib.Tactic.Ring
import Mathlib.Tactic.Linarith

/-! # C128: ids depend on the integer type of the numbers -/

namespace Verif
open Spec

/-! ## bytes -/

theorem leBytes_length (w v : ℕ) : (leBytes w v).length = w := by
  induction w generalizing v with
  | zero => rfl
  | succ w ih => simp [leBytes, ih]

theorem leBytes_inj {w a b : ℕ} (ha : a < 256 ^ w) (hb : b < 256 ^ w) (h : leBytes w a = leBytes w b) : a = b := by
  induction w generalizing a b with
  | zero => simp at ha hb; omega
  | succ w ih =>
    simp only [leBytes, List.cons.injEq] at h
    rw [pow_succ] at ha hb
    have := ih ((Nat.div_lt_iff_lt_mul (by norm_num)).2 ha) ((Nat.div_lt_iff_lt_mul (by norm_num)).2 hb) h.2
    omega

theorem leBytes_zero (w : ℕ) : leBytes w 0 = List.replicate w 0 := by
  induction w with
  | zero => rfl
  | succ w ih => simp [leBytes, ih, List.replicate_succ]

theorem leBytes_add (w k : ℕ) {v : ℕ} (hv : v < 256 ^ w) : leBytes (w + k) v = leBytes w v ++ List.replicate k 0 := by
  induction w generalizing v with
  | zero =>
    simp at hv
    subst hv
    simp [leBytes, leBytes_zero]
  | succ w ih =>
    rw [Nat.add_right_comm, leBytes, leBytes, List.cons_append, ih]
    rw [pow_succ] at hv
    exact (Nat.div_lt_iff_lt_mul (by norm_num)).2 hv

theorem pow_256 (w : ℕ) : (256 : ℕ) ^ w = 2 ^ (8 * w) := by rw [pow_mul]; norm_num

theorem intBytes_length (w : ℕ) (z : ℤ) : (intBytes w z).length = w := leBytes_length _ _

theorem bufBytes_length (w : ℕ) (l : List ℤ) : (bufBytes w l).length = l.length * w := by
  induction l with
  | nil => simp [bufBytes]
  | cons z l ih =>
    have : bufBytes w (z :: l) = intBytes w z ++ bufBytes w l := rfl
    rw [this, List.length_append, ih, intBytes_length, List.length_cons]
    ring

theorem two_pow_half {w : ℕ} (hw : 0 < w) : (2 : ℤ) ^ (8 * w) = 2 * 2 ^ (8 * w - 1) := by
  rw [← pow_succ']
  congr 1
  omega

theorem intBytes_inj {w : ℕ} (hw : 0 < w) {s : Bool} {a b : ℤ} (ha : FitsInt w s a) (hb : FitsInt w s b) (h : intBytes w a = intBytes w b) :
    a = b := by
  have hp : (0 : ℤ) < 2 ^ (8 * w) := by positivity
  have hlt : ∀ z : ℤ, (z % 2 ^ (8 * w)).toNat < 256 ^ w := by
    intro z
    rw [pow_256]
    have h1 := Int.emod_lt_of_pos z hp
    have h2 := Int.emod_nonneg z hp.ne'
    zify
    rw [Int.toNat_of_nonneg h2]
    exact h1
  have h1 := leBytes_inj (hlt a) (hlt b) h
  have h2 : a % 2 ^ (8 * w) = b % 2 ^ (8 * w) := by
    have := congrArg (fun n : ℕ => (n : ℤ)) h1
    simpa [Int.toNat_of_nonneg (Int.emod_nonneg _ hp.ne')] using this
  obtain ⟨k, hk⟩ := Int.dvd_of_emod_eq_zero (Int.emod_eq_emod_iff_emod_sub_eq_zero.1 h2)
  have hh := two_pow_half hw
  have hpos : (0 : ℤ) < 2 ^ (8 * w - 1) := by positivity
  unfold FitsInt at ha hb
  have hlim : -(2 : ℤ) ^ (8 * w) < a - b ∧ a - b < 2 ^ (8 * w) := by
    cases s <;> simp at ha hb <;> constructor <;> linarith [ha.1, ha.2, hb.1, hb.2]
  rw [hk] at hlim
  have : k = 0 := by
    have h3 : k < 1 := by
      by_contra hc
      push Not at hc
      nlinarith
    have h4 : -1 < k := by
      by_contra hc
      push Not at hc
      nlinarith
    omega
  rw [this] at hk
  linarith

/-- **C128.** Two arrays of the same type have the same bytes only if they have the same numbers: an id of equal-typed arrays can only
coincide by a collision of the hash on different byte strings. -/
theorem C128_bytes {w : ℕ} (hw : 0 < w) {s : Bool} {l l' : List ℤ} (hl : ∀ z ∈ l, FitsInt w s z) (hl' : ∀ z ∈ l', FitsInt w s z) :
    bufBytes w l = bufBytes w l' ↔ l = l' := by
  refine ⟨fun h => ?_, fun h => by rw [h]⟩
  induction l generalizing l' with
  | nil =>
    have := congrArg List.length h
    rw [bufBytes_length, bufBytes_length] at this
    simp at this
    rcases this with rfl | rfl
    · rfl
    · omega
  | cons z l ih =>
    cases l' with
    | nil =>
      have := congrArg List.length h
      rw [bufBytes_length, bufBytes_length] at this
      simp at this
      omega
    | cons z' l' =>
      have h' : intBytes w z ++ bufBytes w l = intBytes w z' ++ bufBytes w l' := h
      obtain ⟨h1, h2⟩ := List.append_inj h' (by rw [intBytes_length, intBytes_length])
      rw [intBytes_inj hw (hl z (by simp)) (hl' z' (by simp)) h1,
        ih (fun x hx => hl x (List.mem_cons_of_mem _ hx)) (fun x hx => hl' x (List.mem_cons_of_mem _ hx)) h2]

/-- **C128.** Hence the absence of collisions that C20 and the theorems after it ask for follows from the absence of collisions of the
hash on the byte strings. -/
theorem C128_no_collision {w : ℕ} (hw : 0 < w) {s : Bool} {S : Set (List ℤ)} (hS : ∀ l ∈ S, ∀ z ∈ l, FitsInt w s z) {xx : List ℕ → ℕ}
    (hxx : Set.InjOn xx {b | ∃ l ∈ S, b = bufBytes w l}) : Set.InjOn (fun l => xx (bufBytes w l)) S := by
  intro a ha b hb h
  exact (C128_bytes hw (hS a ha) (hS b hb)).1 (hxx ⟨a, ha, rfl⟩ ⟨b, hb, rfl⟩ h)

/-- **C128.** Every atomic number of the table can be stored in every integer type, and what is stored is always a number of the type. -/
theorem C128_store {w : ℕ} (hw : 0 < w) (s : Bool) (z : ℤ) :
    FitsInt w s (storeInt w s z) ∧ (storeInt w s z = z ↔ FitsInt w s z) ∧ (Known z → FitsInt w s z) := by
  have hp : (0 : ℤ) < 2 ^ (8 * w) := by positivity
  have hh := two_pow_half hw
  have hhp : (0 : ℤ) < 2 ^ (8 * w - 1) := by positivity
  have h128 : (128 : ℤ) ≤ 2 ^ (8 * w - 1) := by
    have : (128 : ℤ) = 2 ^ 7 := by norm_num
    rw [this]
    exact pow_le_pow_right₀ (by norm_num) (by omega)
  refine ⟨?_, ?_, ?_⟩
  · cases s
    · simp only [FitsInt, storeInt, Bool.false_eq_true, if_false]
      exact ⟨Int.emod_nonneg _ hp.ne', Int.emod_lt_of_pos _ hp⟩
    · simp only [FitsInt, storeInt, if_true]
      have h1 := Int.emod_nonneg (z + 2 ^ (8 * w - 1)) hp.ne'
      have h2 := Int.emod_lt_of_pos (z + 2 ^ (8 * w - 1)) hp
      constructor <;> linarith
  · cases s
    · simp only [FitsInt, storeInt, Bool.false_eq_true, if_false]
      exact ⟨fun h => h ▸ ⟨Int.emod_nonneg _ hp.ne', Int.emod_lt_of_pos _ hp⟩, fun h => Int.emod_eq_of_lt h.1 h.2⟩
    · simp only [FitsInt, storeInt, if_true]
      constructor
      · intro h
        have h1 := Int.emod_nonneg (z + 2 ^ (8 * w - 1)) hp.ne'
        have h2 := Int.emod_lt_of_pos (z + 2 ^ (8 * w - 1)) hp
        constructor <;> linarith
      · intro h
        rw [Int.emod_eq_of_lt (by linarith [h.1]) (by linarith [h.2])]
        ring
  · intro h
    have hz : 0 ≤ z ∧ z ≤ 88 := by unfold Known at h; omega
    cases s
    · simp only [FitsInt, Bool.false_eq_true, if_false]
      exact ⟨hz.1, by linarith [hz.2]⟩
    · simp only [FitsInt, if_true]
      exact ⟨by linarith [hz.1], by linarith [hz.2]⟩

/-! ## the generator -/

theorem nodupTyped_eq (xx : List ℕ → ℕ) (P : List (List ℕ)) (seen : List ℕ) (l : List TCell)
    (hP : ∀ c ∈ l, ∀ p ∈ P, ∀ i ∈ p, i < c.cell.numbers.length) :
    nodupTyped xx P seen l =
      .ok (dedupL (TCell.id xx) (fun c => isoKeys (fun m => xx (bufBytes c.width m)) P c.cell) seen l) := by
  induction l generalizing seen with
  | nil => rfl
  | cons c l ih =>
    have hP' : ∀ d ∈ l, ∀ p ∈ P, ∀ i ∈ p, i < d.cell.numbers.length := fun d hd => hP d (List.mem_cons_of_mem _ hd)
    rw [nodupTyped, dedupL_cons]
    split
    · exact ih seen hP'
    · obtain ⟨s, h1, h2⟩ := updateIsoset_ok (fun m => xx (bufBytes c.width m)) c.cell.numbers P seen (hP c (by simp))
      rw [h1]
      simp only [bind, Except.bind, ih s hP', pure, Except.pure]
      rw [dedupL_congr_seen _ _ s _ h2]
      rfl

/-- **C128.** If all structures have the same type, as the structures a generator makes from one cell have, the generator does what
`Model/Sogen` says, with the hash of the bytes. -/
theorem C128_uniform (xx : List ℕ → ℕ) (g : OGen) (w : ℕ) (dup : List GCell) :
    g.gen2NodupTyped xx (dup.map (TCell.mk w)) = (g.gen2Nodup (fun m => xx (bufBytes w m)) dup).map (List.map (TCell.mk w)) := by
  have : ∀ seen, nodupTyped xx g.perms seen (dup.map (TCell.mk w)) =
      (gen2NodupLoop (fun m => xx (bufBytes w m)) g.perms seen dup).map (List.map (TCell.mk w)) := by
    induction dup with
    | nil => intro seen; rfl
    | cons c dup ih =>
      intro seen
      rw [List.map_cons, nodupTyped, gen2NodupLoop]
      change (if c.id (fun m => xx (bufBytes w m)) ∈ seen then _ else _) = _
      split
      · exact ih seen
      · simp only [bind, Except.bind]
        cases updateIsoset (fun m => xx (bufBytes w m)) seen c.numbers g.perms with
        | error e => rfl
        | ok s =>
          simp only [ih s]
          cases gen2NodupLoop (fun m => xx (bufBytes w m)) g.perms s dup <;> rfl
  exact this []

/-- the structures of one type -/
def ofWidth (w : ℕ) (l : List TCell) : List GCell := (l.filter fun c => c.width == w).map TCell.cell

theorem dedup_mixed (xx : List ℕ → ℕ) (P : List (List ℕ)) {n : ℕ} (hn : 0 < n) (hP : ∀ p ∈ P, p.Perm (List.range n)) (w : ℕ) :
    ∀ (l : List TCell) (B : Set (List ℕ)) (seen seen' : List ℕ),
      (∀ c ∈ l, c.cell.numbers.length = n) →
      (∀ c ∈ l, bufBytes c.width c.cell.numbers ∈ B ∧ ∀ p ∈ P, bufBytes c.width (gather c.cell.numbers p) ∈ B) →
      (∀ a ∈ B, ∀ b ∈ B, xx a = xx b → a.length = b.length) →
      (∀ b ∈ B, b.length = n * w → (xx b ∈ seen ↔ xx b ∈ seen')) →
      ofWidth w (dedupL (TCell.id xx) (fun c => isoKeys (fun m => xx (bufBytes c.width m)) P c.cell) seen l) =
        dedupL (GCell.id fun m => xx (bufBytes w m)) (isoKeys (fun m => xx (bufBytes w m)) P) seen' (ofWidth w l) := by
  intro l
  induction l with
  | nil => intros; rfl
  | cons c l ih =>
    intro B seen seen' hl hB hxx hs
    have hl' : ∀ d ∈ l, d.cell.numbers.length = n := fun d hd => hl d (List.mem_cons_of_mem _ hd)
    have hB' := fun d (hd : d ∈ l) => hB d (List.mem_cons_of_mem _ hd)
    obtain ⟨hc1, hc2⟩ := hB c (by simp)
    have hlen : ∀ p ∈ P, (bufBytes c.width (gather c.cell.numbers p)).length = n * c.width := by
      intro p hp
      rw [bufBytes_length]
      congr 1
      have := gather_length (xs := c.cell.numbers) (p := p) (by
        intro i hi
        rw [hl c (by simp)]
        exact List.mem_range.1 ((hP p hp).subset hi))
      rw [this, (hP p hp).length_eq, List.length_range]
    rw [dedupL_cons]
    by_cases hw : c.width = w
    · have e : ofWidth w (c :: l) = c.cell :: ofWidth w l := by simp [ofWidth, hw]
      rw [e, dedupL_cons]
      have hid : c.id xx ∈ seen ↔ c.cell.id (fun m => xx (bufBytes w m)) ∈ seen' := by
        have := hs _ hc1 (by rw [bufBytes_length, hl c (by simp), hw])
        unfold TCell.id GCell.id
        rw [this, hw]
      by_cases h : c.id xx ∈ seen
      · rw [if_pos h, if_pos (hid.1 h)]
        exact ih B seen seen' hl' hB' hxx hs
      · rw [if_neg h, if_neg (fun h' => h (hid.2 h'))]
        have e2 : ∀ r, ofWidth w (c :: r) = c.cell :: ofWidth w r := fun r => by simp [ofWidth, hw]
        rw [e2]
        congr 1
        refine ih B _ _ hl' hB' hxx fun b hb hbl => ?_
        rw [List.mem_append, List.mem_append, hs b hb hbl, hw]
    · have e : ∀ r, ofWidth w (c :: r) = ofWidth w r := fun r => by simp [ofWidth, hw]
      rw [e]
      split
      · exact ih B seen seen' hl' hB' hxx hs
      · rw [e]
        refine ih B _ _ hl' hB' hxx fun b hb hbl => ?_
        rw [List.mem_append, ← hs b hb hbl]
        refine ⟨fun h => h.resolve_left fun h' => ?_, .inr⟩
        obtain ⟨p, hp, hpe⟩ := List.mem_map.1 h'
        have := hxx _ (hc2 p hp) _ hb hpe
        rw [hlen p hp, hbl] at this
        exact hw (Nat.eq_of_mul_eq_mul_left hn this)

/-- **C128.** Fed with structures of several types, `gen_2nodup_gen` filters every type for itself: a structure is compared with those of
its own type only, whatever the others are. (The hash is only asked to tell byte strings of different lengths apart.) -/
theorem C128_mixed (xx : List ℕ → ℕ) (g : OGen) {n : ℕ} (hn : 0 < n) (hP : ∀ p ∈ g.perms, p.Perm (List.range n)) (dup : List TCell)
    (hl : ∀ c ∈ dup, c.cell.numbers.length = n)
    (hxx : ∀ c ∈ dup, ∀ d ∈ dup, ∀ a b : List ℤ, a.length = n → b.length = n → xx (bufBytes c.width a) = xx (bufBytes d.width b) →
      c.width = d.width) :
    ∃ out, g.gen2NodupTyped xx dup = .ok out ∧
      ∀ w, g.gen2Nodup (fun m => xx (bufBytes w m)) (ofWidth w dup) = .ok (ofWidth w out) := by
  have hlt : ∀ c ∈ dup, ∀ p ∈ g.perms, ∀ i ∈ p, i < c.cell.numbers.length := by
    intro c hc p hp i hi
    rw [hl c hc]
    exact List.mem_range.1 ((hP p hp).subset hi)
  refine ⟨_, nodupTyped_eq xx g.perms [] dup hlt, fun w => ?_⟩
  have hmem : ∀ c ∈ ofWidth w dup, ∃ d ∈ dup, d.cell = c := by
    intro c hc
    obtain ⟨d, hd, rfl⟩ := List.mem_map.1 hc
    exact ⟨d, (List.mem_filter.1 hd).1, rfl⟩
  unfold OGen.gen2Nodup
  rw [gen2NodupLoop_eq _ _ _ _ (by
    intro c hc
    obtain ⟨d, hd, rfl⟩ := hmem c hc
    exact hlt d hd)]
  congr 1
  refine (dedup_mixed xx g.perms hn hP w dup {b | ∃ c ∈ dup, ∃ a : List ℤ, a.length = n ∧ b = bufBytes c.width a} [] [] hl ?_ ?_ ?_).symm
  · refine fun c hc => ⟨⟨c, hc, _, hl c hc, rfl⟩, fun p hp => ⟨c, hc, _, ?_, rfl⟩⟩
    rw [gather_length (hlt c hc p hp), (hP p hp).length_eq, List.length_range]
  · rintro _ ⟨c, hc, a, ha, rfl⟩ _ ⟨d, hd, b, hb, rfl⟩ h
    rw [bufBytes_length, bufBytes_length, ha, hb, hxx c hc d hd a b ha hb h]
  · intros; rfl

/-- **C128.** So the same structures given once more in another type are all kept a second time. -/
theorem C128_twice (xx : List ℕ → ℕ) (g : OGen) {n : ℕ} (hn : 0 < n) (hP : ∀ p ∈ g.perms, p.Perm (List.range n)) (dup : List GCell)
    (hl : ∀ c ∈ dup, c.numbers.length = n) {w w' : ℕ} (hw : w ≠ w')
    (hxx : ∀ a b : List ℤ, a.length = n → b.length = n → xx (bufBytes w a) ≠ xx (bufBytes w' b)) :
    ∃ out kept kept', g.gen2NodupTyped xx (dup.map (TCell.mk w) ++ dup.map (TCell.mk w')) = .ok out ∧
      g.gen2Nodup (fun m => xx (bufBytes w m)) dup = .ok kept ∧ g.gen2Nodup (fun m => xx (bufBytes w' m)) dup = .ok kept' ∧
      ofWidth w out = kept ∧ ofWidth w' out = kept' := by
  obtain ⟨out, h1, h2⟩ := C128_mixed xx g hn hP (dup.map (TCell.mk w) ++ dup.map (TCell.mk w')) (by
    intro c hc
    rcases List.mem_append.1 hc with hc | hc <;> obtain ⟨d, hd, rfl⟩ := List.mem_map.1 hc <;> exact hl d hd) (by
    intro c hc d hd a b ha hb h
    rcases List.mem_append.1 hc with hc | hc <;> rcases List.mem_append.1 hd with hd | hd <;>
      obtain ⟨c, -, rfl⟩ := List.mem_map.1 hc <;> obtain ⟨d, -, rfl⟩ := List.mem_map.1 hd
    · rfl
    · exact absurd h (hxx a b ha hb)
    · exact absurd h.symm (hxx b a hb ha)
    · rfl)
  have own : ∀ v : ℕ, ofWidth v (dup.map (TCell.mk v)) = dup := fun v => by
    clear h1 h2 hl
    induction dup with
    | nil => rfl
    | cons c dup ih => simpa [ofWidth] using ih
  have other : ∀ u v : ℕ, u ≠ v → ofWidth v (dup.map (TCell.mk u)) = [] := fun u v huv => by
    simp [ofWidth, List.filter_eq_nil_iff, huv]
  have app : ∀ v l l', ofWidth v (l ++ l') = ofWidth v l ++ ofWidth v l' := fun v l l' => by simp [ofWidth]
  have e1 := h2 w
  have e2 := h2 w'
  rw [app, own, other w' w hw.symm, List.append_nil] at e1
  rw [app, own, other w w' hw, List.nil_append] at e2
  exact ⟨out, _, _, h1, e1, e2, rfl, rfl⟩

/-- **C128.** The id is not a function of the structure: the same numbers in two types have different ids, unless the hash collides on
byte strings of different lengths. Conversely a cell and a cell of half the integer width with a vacancy after every atom have the same
id, for every hash. -/
theorem C128_id (xx : List ℕ → ℕ) :
    (∀ (c : GCell) (w w' : ℕ), w ≠ w' → c.numbers ≠ [] → (∀ a b : List ℕ, a.length ≠ b.length → xx a ≠ xx b) →
      (TCell.mk w c).id xx ≠ (TCell.mk w' c).id xx) ∧
    (∀ (c d : GCell) (w : ℕ), (∀ z ∈ c.numbers, 0 ≤ z ∧ z < 2 ^ (8 * w)) → d.numbers = c.numbers.flatMap (fun z => [z, 0]) →
      (TCell.mk (w + w) c).id xx = (TCell.mk w d).id xx) := by
  constructor
  · intro c w w' hw hne hxx
    refine hxx _ _ ?_
    rw [bufBytes_length, bufBytes_length]
    exact fun h => hw (Nat.eq_of_mul_eq_mul_left (List.length_pos_of_ne_nil hne) h)
  · intro c d w hz hd
    unfold TCell.id
    congr 1
    simp only [hd]
    generalize c.numbers = l at hz
    induction l with
    | nil => rfl
    | cons z l ih =>
      have e1 : bufBytes (w + w) (z :: l) = intBytes (w + w) z ++ bufBytes (w + w) l := rfl
      have e2 : bufBytes w ((z :: l).flatMap fun z => [z, 0]) =
          intBytes w z ++ (intBytes w 0 ++ bufBytes w (l.flatMap fun z => [z, 0])) := rfl
      rw [e1, e2, ih (fun y hy => hz y (List.mem_cons_of_mem _ hy)), ← List.append_assoc]
      congr 1
      obtain ⟨h0, h1⟩ := hz z (by simp)
      have hle : (2 : ℤ) ^ (8 * w) ≤ 2 ^ (8 * (w + w)) := pow_le_pow_right₀ (by norm_num) (by omega)
      unfold intBytes
      rw [Int.emod_eq_of_lt h0 h1, Int.emod_eq_of_lt h0 (h1.trans_le hle)]
      simp only [Int.zero_emod, Int.toNat_zero]
      rw [leBytes_add w w (by rw [pow_256]; zify; rw [Int.toNat_of_nonneg h0]; exact h1), leBytes_zero]

/-! ## Examples -/

/-- iron and a vacancy: 8-byte and 4-byte integers -/
example : bufBytes 4 [26, 0] = [26, 0, 0, 0, 0, 0, 0, 0] ∧ bufBytes 8 [26] = bufBytes 4 [26, 0] ∧ bufBytes 2 [-2, 300] = [254, 255, 44, 1] ∧
    storeInt 1 true 200 = -56 ∧ storeInt 1 false 300 = 44 := by decide

/-- a hash that tells the byte strings of the chain apart: the structure of 8-byte integers and the same one in 4-byte integers are both
kept, while `is_equivalent` finds them equal -/
example : ∃ (xx : List ℕ → ℕ) (g : OGen) (c : GCell),
    (g.gen2NodupTyped xx [⟨8, c⟩, ⟨4, c⟩, ⟨8, c⟩]).map (List.map TCell.width) = .ok [8, 4] ∧ g.isEquivalent c c = .ok true := by
  refine ⟨List.length, ⟨⟨((1, 0, 0), (0, 1, 0), (0, 0, 1)), [(0, 0, 0), (0, 0, 1 / 2)], [26, 29], [26, 29], 2⟩, [[0, 1], [1, 0]], ["a", "a"]⟩,
    ⟨((1, 0, 0), (0, 1, 0), (0, 0, 1)), [(0, 0, 0), (0, 0, 1 / 2)], [26, 29], [26, 29], 2⟩, ?_, ?_⟩ <;> decide +kernel

end Verif
