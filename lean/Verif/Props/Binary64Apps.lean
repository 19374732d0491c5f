import Verif.Model.Binary64Apps
import Verif.Spec.Doubled
import Verif.Props.Binary64Io
import Verif.Props.Rounded
import Verif.Props.AppAborts
import Verif.Props.AppsMore

/-! # C130: application runs in double precision -/

namespace Verif
open Spec

/-! ## numbers -/

theorem four_close {t : ℚ} (ht : |t| ≤ 100) : |fl64 t - t| ≤ 1 / 10 ^ 13 :=
  (fl64_err_le (B := 100) (by norm_num) ht).trans (by norm_num)

theorem one_close {t : ℚ} (ht : |t| ≤ 1) : |fl64 t - t| ≤ 1 / 10 ^ 15 :=
  (fl64_err_le le_rfl ht).trans (by norm_num)

theorem faithful_fl {t : ℚ} (ht : |t| ≤ 1) (hc : Clear (1 / 10 ^ 5) t) : Faithful t (fl64 t) :=
  ⟨ht.trans (by norm_num), .inl ⟨(one_close ht).trans (by norm_num), hc.mono (by norm_num)⟩⟩

/-- a number with four decimals and its double -/
theorem four_steady {t : ℚ} (ht : |t| ≤ 100) (h4 : Four t) : Steady t (fl64 t) := by
  have hclose := four_close ht
  refine ⟨ht.trans (by norm_num), hclose.trans (by norm_num), ?_, ?_⟩
  · obtain ⟨n, rfl⟩ := h4
    rcases lt_trichotomy n 0 with h | rfl | h
    · have : (n : ℚ) ≤ -1 := by exact_mod_cast (by omega : n ≤ -1)
      rw [abs_le] at hclose
      constructor <;> intro _ <;> linarith
    · simp [fl64, rint]
    · have : (1 : ℚ) ≤ n := by exact_mod_cast h
      rw [abs_le] at hclose
      constructor <;> intro _ <;> linarith
  · obtain ⟨n, rfl⟩ := h4
    intro k
    have e : (n : ℚ) / 10 ^ 4 * 10 ^ 6 - (k + 1 / 2) = ((2 * (100 * n - k) - 1 : ℤ) : ℚ) / 2 := by push_cast; ring
    rw [e, abs_div, ← Int.cast_abs, abs_of_pos (by norm_num : (0 : ℚ) < 2)]
    have : (1 : ℤ) ≤ |2 * (100 * n - k) - 1| := Int.one_le_abs (by omega)
    have : (1 : ℚ) ≤ (|2 * (100 * n - k) - 1| : ℤ) := by exact_mod_cast this
    linarith

theorem Spec.Steady.rint {t t' : ℚ} (h : Steady t t') : rint (t' * 10 ^ 6) = rint (t * 10 ^ 6) := by
  refine rint_clearDec h.clear ?_
  have := h.close
  rw [abs_le] at *; constructor <;> linarith

theorem Spec.Steady.fixed6 {t t' : ℚ} (h : Steady t t') : fixed6 t' = fixed6 t := by
  unfold Verif.fixed6
  rw [h.rint]
  simp only [h.sign]

theorem Spec.Steady.six {t t' : ℚ} (h : Steady t t') : npAround 6 t' = fl64 (around 6 t) := by
  have hb := h.bound
  have hc := h.close
  have hb' : |t' * 10 ^ 6| ≤ 10 ^ 11 := by rw [abs_le] at *; constructor <;> linarith
  have e := fl64_err_le (by norm_num) hb'
  unfold npAround around
  rw [rint_clearDec h.clear]
  rw [abs_le] at *; constructor <;> linarith

theorem npAround4_read {t : ℚ} (ht : |t| ≤ 100) (h : ∀ n : ℤ, 1 / 10 ^ 3 < |t * 10 ^ 4 - (n + 1 / 2)|) :
    npAround 4 (fl64 t) = fl64 (around 4 t) := by
  have e1 := four_close ht
  have hb : |fl64 t * 10 ^ 4| ≤ 10 ^ 7 := by rw [abs_le] at *; constructor <;> linarith
  have e2 := fl64_err_le (by norm_num) hb
  unfold npAround around
  rw [rint_clearDec h]
  rw [abs_le] at *; constructor <;> linarith

theorem four_around (t : ℚ) : Four (around 4 t) := ⟨rint (t * 10 ^ 4), rfl⟩

/-! ## cells -/

/-- the positions of a tame cell -/
def TamePos (ps : List (V3 ℚ)) : Prop := ∀ x ∈ ps, All3 (fun t => |t| ≤ 1 ∧ Four t ∧ Clear (1 / 10 ^ 5) t) x

theorem newIdSeq_doubled {ps : List (V3 ℚ)} (h : TamePos ps) : newIdSeq64 (ps.map dV) = newIdSeq ps := by
  apply C87_images
  rw [List.forall₂_map_right_iff, List.forall₂_same]
  intro x hx
  obtain ⟨h1, h2, h3⟩ := h x hx
  exact ⟨faithful_fl h1.1 h1.2.2, faithful_fl h2.1 h2.2.2, faithful_fl h3.1 h3.2.2⟩

theorem mapM_map_eq {α β γ} {f : α → Py β} {f' : α → Py γ} (φ : β → γ) {l : List α} (h : ∀ a ∈ l, f' a = (f a).map φ) :
    l.mapM f' = (l.mapM f).map (List.map φ) := by
  induction l with
  | nil => rfl
  | cons a l ih =>
    rw [List.mapM_cons, List.mapM_cons, h a (by simp), ih fun b hb => h b (List.mem_cons_of_mem _ hb)]
    cases f a with
    | error e => rfl
    | ok b =>
      simp only [bind, Except.bind, Except.map]
      cases l.mapM f with
      | error e => rfl
      | ok bs => rfl

theorem fancy_map_eq {α β} (f : α → β) (xs : List α) (idx : List ℕ) : fancy (xs.map f) idx = (fancy xs idx).map (List.map f) := by
  unfold fancy
  refine mapM_map_eq f fun i _ => ?_
  rw [List.getElem?_map]
  cases xs[i]? <;> rfl

/-- building a cell -/
theorem new64_doubled (L : M3 ℚ) {ps : List (V3 ℚ)} (h : TamePos ps) (nums : List ℤ) :
    GCell.new64 (dM L) (ps.map dV) nums = (GCell.new L ps nums).map GCell.doubled := by
  unfold GCell.new64 GCell.new
  rw [newIdSeq_doubled h]
  cases newIdSeq ps with
  | error e => rfl
  | ok idx =>
    simp only [bind, Except.bind, fancy_map_eq dV ps idx]
    cases fancy ps idx with
    | error e => rfl
    | ok qs =>
      simp only [Except.map]
      cases fancy nums idx with
      | error e => rfl
      | ok ns => rfl

theorem new_base {L : M3 ℚ} {c d : GCell} (hc : Built c) {nums : List ℤ} (hd : GCell.new L c.positions nums = .ok d) :
    d.lattice = L ∧ d.positions = c.positions ∧ Built d := by
  obtain ⟨-, -, hps, -, hl, -⟩ := new_ok_inv hd
  rw [lexsort3_of_sorted _ hc.sorted, List.length_map, fancy_range] at hps
  exact ⟨hl, (Except.ok.inj hps).symm, _, _, _, hd⟩

/-! ## structures -/

/-- the structures concerned: cells with lattice `L` and positions `P` -/
def BaseCells (L : M3 ℚ) (P : List (V3 ℚ)) (cs : List GCell) : Prop := ∀ d ∈ cs, d.lattice = L ∧ d.positions = P ∧ Built d

theorem gen2Nodup_doubled (hash : List ℤ → ℕ) (perms : List (List ℕ)) (cs : List GCell) (iso : List ℕ) :
    gen2NodupLoop hash perms iso (cs.map GCell.doubled) = (gen2NodupLoop hash perms iso cs).map (List.map GCell.doubled) := by
  induction cs generalizing iso with
  | nil => rfl
  | cons c cs ih =>
    rw [List.map_cons, gen2NodupLoop, gen2NodupLoop]
    have hid : c.doubled.id hash = c.id hash := rfl
    have hnum : c.doubled.numbers = c.numbers := rfl
    rw [hid, hnum]
    split
    · exact ih iso
    · cases updateIsoset hash iso c.numbers perms with
      | error e => rfl
      | ok iso' =>
        simp only [bind, Except.bind]
        rw [ih iso']
        cases gen2NodupLoop hash perms iso' cs <;> rfl

theorem gen2Nodup_subset {hash : List ℤ → ℕ} {perms : List (List ℕ)} {cs : List GCell} {iso : List ℕ} {out : List GCell}
    (h : gen2NodupLoop hash perms iso cs = .ok out) : ∀ d ∈ out, d ∈ cs := by
  induction cs generalizing iso out with
  | nil => obtain rfl := Except.ok.inj h; simp
  | cons c cs ih =>
    rw [gen2NodupLoop] at h
    split at h
    · exact fun d hd => List.mem_cons_of_mem _ (ih h d hd)
    · obtain ⟨iso', _, h⟩ := bind_ok h
      obtain ⟨rest, hr, h⟩ := bind_ok h
      obtain rfl := Except.ok.inj h
      intro d hd
      rcases List.mem_cons.1 hd with rfl | hd
      · simp
      · exact List.mem_cons_of_mem _ (ih hr d hd)

theorem genDupOfEle_doubled {g : OGen} (h : TamePos g.init.positions) (ele : Specie) (n : ℕ) (sp : Specie) :
    OGen.genDupOfEle64 { g with init := g.init.doubled } ele n sp = (g.genDupOfEle ele n sp).map (List.map GCell.doubled) :=
  mapM_map_eq GCell.doubled fun _ _ => new64_doubled _ h _

theorem genNodupOfEle_doubled (hash : List ℤ → ℕ) {g : OGen} (h : TamePos g.init.positions) (ele : Specie) (n : ℕ) (sp : Specie) :
    OGen.genNodupOfEle64 hash { g with init := g.init.doubled } ele n sp = (g.genNodupOfEle hash ele n sp).map (List.map GCell.doubled) := by
  unfold OGen.genNodupOfEle64 OGen.genNodupOfEle
  rw [genDupOfEle_doubled h]
  cases g.genDupOfEle ele n sp with
  | error e => rfl
  | ok cs => exact gen2Nodup_doubled hash g.perms cs []

theorem addOneInner_doubled (hash : List ℤ → ℕ) {c : GCell} (h : TamePos c.positions) (cands : List (List ℤ)) (db : List ℕ) :
    addOneInner64 hash c.doubled cands db = (addOneInner hash c cands db).map fun r => (r.1.map GCell.doubled, r.2) := by
  induction cands generalizing db with
  | nil => rfl
  | cons nn rest ih =>
    rw [addOneInner64, addOneInner]
    split
    · exact ih db
    · rw [show GCell.new64 c.doubled.lattice c.doubled.positions nn = _ from new64_doubled c.lattice h nn]
      cases GCell.new c.lattice c.positions nn with
      | error e => rfl
      | ok d =>
        simp only [bind, Except.bind, Except.map]
        rw [ih]
        cases addOneInner hash c rest (hash nn :: db) <;> rfl

theorem addOneInner_base {hash : List ℤ → ℕ} {c : GCell} (hc : Built c) {cands : List (List ℤ)} {db : List ℕ}
    {r : List GCell × List ℕ} (hr : addOneInner hash c cands db = .ok r) : BaseCells c.lattice c.positions r.1 := by
  induction cands generalizing db r with
  | nil => obtain rfl := Except.ok.inj hr; intro d hd; simp at hd
  | cons nn rest ih =>
    rw [addOneInner] at hr
    split at hr
    · exact ih hr
    · obtain ⟨d, hd, hr⟩ := bind_ok hr
      obtain ⟨s, hs, hr⟩ := bind_ok hr
      obtain rfl := Except.ok.inj hr
      intro x hx
      rcases List.mem_cons.1 hx with rfl | hx
      · exact new_base hc hd
      · exact ih hs x hx

theorem addOneLoop_doubled (hash : List ℤ → ℕ) (ok : ℕ → ℤ → Bool) (atom : ℤ) {L : M3 ℚ} {P : List (V3 ℚ)} (hP : TamePos P) {gen : List GCell} (h : BaseCells L P gen) (db : List ℕ) :
    addOneLoop64 hash ok atom (gen.map GCell.doubled) db = (addOneLoop hash ok atom gen db).map (List.map GCell.doubled) := by
  induction gen generalizing db with
  | nil => rfl
  | cons c cs ih =>
    rw [List.map_cons, addOneLoop64, addOneLoop, addOneInner_doubled hash (c := c) ((h c (by simp)).2.1 ▸ hP)]
    rw [show c.doubled.numbers = c.numbers from rfl]
    cases addOneInner hash c (addOneCands ok atom c.numbers) db with
    | error e => rfl
    | ok r =>
      simp only [bind, Except.bind, Except.map]
      rw [ih (fun d hd => h d (List.mem_cons_of_mem _ hd))]
      cases addOneLoop hash ok atom cs r.2 with
      | error e => rfl
      | ok s => simp only [Except.map, pure, Except.pure, List.map_append]

theorem addOneLoop_base {hash : List ℤ → ℕ} {ok : ℕ → ℤ → Bool} {atom : ℤ} {L : M3 ℚ} {P : List (V3 ℚ)} {gen : List GCell} (h : BaseCells L P gen) {db : List ℕ}
    {out : List GCell} (ho : addOneLoop hash ok atom gen db = .ok out) : BaseCells L P out := by
  induction gen generalizing db out with
  | nil => obtain rfl := Except.ok.inj ho; intro d hd; simp at hd
  | cons c cs ih =>
    rw [addOneLoop] at ho
    obtain ⟨r, hr, ho⟩ := bind_ok ho
    obtain ⟨s, hs, ho⟩ := bind_ok ho
    obtain rfl := Except.ok.inj ho
    intro d hd
    rcases List.mem_append.1 hd with hd | hd
    · obtain ⟨rfl, rfl, hc⟩ := h c (by simp)
      exact addOneInner_base hc hr d hd
    · exact ih (fun d hd => h d (List.mem_cons_of_mem _ hd)) hs d hd

theorem levels_doubled {step step' : List GCell → Py (List GCell)} {L : M3 ℚ} {P : List (V3 ℚ)}
    (h1 : ∀ l, BaseCells L P l → step' (l.map GCell.doubled) = (step l).map (List.map GCell.doubled))
    (h2 : ∀ l out, BaseCells L P l → step l = .ok out → BaseCells L P out) (k : ℕ) {gen : List GCell} (h : BaseCells L P gen) :
    levels step' k (gen.map GCell.doubled) = (levels step k gen).map (List.map (List.map GCell.doubled)) ∧
      ∀ ls, levels step k gen = .ok ls → BaseCells L P ls.flatten := by
  induction k generalizing gen with
  | zero => exact ⟨rfl, fun ls hls => by obtain rfl := Except.ok.inj hls; intro d hd; simp at hd⟩
  | succ k ih =>
    rw [levels, levels, h1 gen h]
    cases hs : step gen with
    | error e => exact ⟨rfl, fun ls hls => by cases hls⟩
    | ok gen' =>
      obtain ⟨i1, i2⟩ := ih (h2 gen gen' h hs)
      simp only [bind, Except.bind, Except.map]
      rw [i1]
      cases hr : levels step k gen' with
      | error e => exact ⟨rfl, fun ls hls => by cases hls⟩
      | ok rest =>
        refine ⟨rfl, fun ls hls => ?_⟩
        obtain rfl := Except.ok.inj hls
        intro d hd
        rw [List.flatten_cons] at hd
        rcases List.mem_append.1 hd with hd | hd
        · exact h2 gen gen' h hs d hd
        · exact i2 rest hr d hd

theorem allSpeckle_doubled (hash : List ℤ → ℕ) {g : OGen} (hb : Built g.init) (h : TamePos g.init.positions) (n : ℕ) (ele sp : Specie) :
    OGen.allSpeckleOfEle64 hash { g with init := g.init.doubled } n ele sp =
        (g.allSpeckleOfEle hash n ele sp).map (List.map (List.map GCell.doubled)) ∧
      ∀ ls, g.allSpeckleOfEle hash n ele sp = .ok ls → BaseCells g.init.lattice g.init.positions ls.flatten := by
  unfold OGen.allSpeckleOfEle64 OGen.allSpeckleOfEle
  refine levels_doubled (gen := [g.init]) (fun l hl => ?_) (fun l out hl ho => ?_) _ ?_
  · rw [addOneLoop_doubled hash _ _ h hl]
    unfold OGen.addOneOfEle
    cases addOneLoop hash (fun _ v => v == ele.Z && v != sp.Z) sp.Z l [] with
    | error e => rfl
    | ok cs => exact gen2Nodup_doubled hash g.perms cs []
  · obtain ⟨cs, hcs, ho⟩ := bind_ok ho
    exact fun d hd => addOneLoop_base hl hcs d (gen2Nodup_subset ho d hd)
  · intro d hd
    rw [List.mem_singleton] at hd
    subst hd
    exact ⟨rfl, rfl, hb⟩

theorem genNodup_base {hash : List ℤ → ℕ} {g : OGen} (hb : Built g.init) {ele : Specie} {n : ℕ} {sp : Specie} {cs : List GCell}
    (h : g.genNodupOfEle hash ele n sp = .ok cs) : BaseCells g.init.lattice g.init.positions cs := by
  obtain ⟨dup, hd, h⟩ := bind_ok h
  intro d hd'
  obtain ⟨a, -, ha⟩ := mapM_mem_ok _ _ _ hd d (gen2Nodup_subset h d hd')
  exact new_base hb ha

/-! ## symmetry -/

theorem clear_near {x y δ δ' η : ℚ} {z : ℤ} (hx : Clear δ x) (h : |y - (x + z)| ≤ η) (hd : 1000 * η + δ' ≤ δ) : Clear δ' y := by
  intro n
  have h1 := hx (n - 1000 * z)
  have e : 1000 * x - (((n - 1000 * z : ℤ) : ℚ) + 1 / 2) = (1000 * y - (n + 1 / 2)) - 1000 * (y - (x + z)) := by push_cast; ring
  rw [e] at h1
  have h2 := abs_sub (1000 * y - (n + 1 / 2)) (1000 * (y - (x + z)))
  rw [abs_mul, abs_of_pos (by norm_num : (0 : ℚ) < 1000)] at h2
  linarith

theorem doubled_twin {c : GCell} (h : TamePos c.positions) : Twin (1 / 10 ^ 15) c.lattice (dM c.lattice) c c.doubled := by
  refine ⟨rfl, rfl, rfl, rfl, rfl, ?_⟩
  show List.Forall₂ _ c.positions (c.positions.map dV)
  rw [List.forall₂_map_right_iff, List.forall₂_same]
  intro x hx
  obtain ⟨h1, h2, h3⟩ := h x hx
  exact ⟨one_close h1.1, one_close h2.1, one_close h3.1⟩

theorem rowSum_le {r : V3 ℤ} (h : |r.1| ≤ 10 ∧ |r.2.1| ≤ 10 ∧ |r.2.2| ≤ 10) : rowSum r ≤ 30 := by
  have k : ∀ a : ℤ, |a| ≤ 10 → |(a : ℚ)| ≤ 10 := fun a ha => by rw [← Int.cast_abs]; exact_mod_cast ha
  have h1 := k _ h.1
  have h2 := k _ h.2.1
  have h3 := k _ h.2.2
  unfold rowSum
  linarith

theorem rowSum_nonneg (r : V3 ℤ) : 0 ≤ rowSum r := by unfold rowSum; positivity

theorem symmetry_doubled {e : Ext} {c : GCell} (h : TamePos c.positions) (hs : SpgAgrees e c) :
    c.doubled.symmetryPermutation64 (e.symmetry c.doubled) = c.symmetryPermutation (e.symmetry c) := by
  have hmem : ∀ g' ∈ e.symmetry c.doubled, ∃ g ∈ e.symmetry c, NearOp (1 / 10 ^ 9) g g' := by
    intro g' hg'
    obtain ⟨g, hg, hn⟩ := forall₂_mem_right hs.ops hg'
    exact ⟨g, hg, hn⟩
  have himg : ∀ g ∈ e.symmetry c, ∀ x ∈ c.positions, ClearImage (1 / 10 ^ 15) (1 / 10 ^ 9) g x := by
    intro g hg x hx
    obtain ⟨c1, c2, c3⟩ := hs.clear g hg x hx
    have key : ∀ r ∈ [g.1.1, g.1.2.1, g.1.2.2], 1000 * (rowSum r * (1 / 10 ^ 15) + 1 / 10 ^ 9) ≤ (1 : ℚ) / 10 ^ 5 := by
      intro r hr
      have := rowSum_le (hs.small g hg r hr)
      linarith
    exact ⟨c1.mono (key _ (by simp)), c2.mono (key _ (by simp)), c3.mono (key _ (by simp))⟩
  refine (C87_symmetry c.doubled (e.symmetry c.doubled) ?_ ?_ hs.translations ?_).trans
    (C107_permutations (doubled_twin h) hs.ops himg)
  · intro x hx
    obtain ⟨y, hy, rfl⟩ := List.mem_map.1 hx
    have k : ∀ t : ℚ, |t| ≤ 1 → |fl64 t| ≤ 100 := fun t ht => by
      have := one_close ht
      rw [abs_le] at *; constructor <;> linarith
    obtain ⟨h1, h2, h3⟩ := h y hy
    exact ⟨k _ h1.1, k _ h2.1, k _ h3.1⟩
  · intro g' hg' r hr
    obtain ⟨g, hg, hn, -⟩ := hmem g' hg'
    rw [hn] at hr
    exact hs.small g hg r hr
  · intro g' hg' x hx
    left
    obtain ⟨y, hy, rfl⟩ := List.mem_map.1 hx
    obtain ⟨g, hg, hr, v, ht⟩ := hmem g' hg'
    obtain ⟨r, t⟩ := g
    obtain ⟨r', t'⟩ := g'
    obtain rfl : r' = r := hr
    obtain ⟨p1, p2, p3⟩ := h y hy
    have w1 := one_close p1.1
    have w2 := one_close p2.1
    have w3 := one_close p3.1
    have row : ∀ (a : V3 ℤ) (s s' : ℚ) (z : ℤ), (|a.1| ≤ 10 ∧ |a.2.1| ≤ 10 ∧ |a.2.2| ≤ 10) → |s' - (s + z)| ≤ 1 / 10 ^ 9 →
        Clear (1 / 10 ^ 5) ((a.1 : ℚ) * y.1 + a.2.1 * y.2.1 + a.2.2 * y.2.2 + s) →
        Clear (1 / 10 ^ 6) ((a.1 : ℚ) * fl64 y.1 + a.2.1 * fl64 y.2.1 + a.2.2 * fl64 y.2.2 + s') := by
      intro a s s' z ha hs' hcl
      refine clear_near (z := z) (η := 2 / 10 ^ 9) hcl ?_ (by norm_num)
      have e1 : (a.1 : ℚ) * fl64 y.1 + a.2.1 * fl64 y.2.1 + a.2.2 * fl64 y.2.2 + s' - ((a.1 : ℚ) * y.1 + a.2.1 * y.2.1 + a.2.2 * y.2.2 + s + z) =
          a.1 * (fl64 y.1 - y.1) + a.2.1 * (fl64 y.2.1 - y.2.1) + a.2.2 * (fl64 y.2.2 - y.2.2) + (s' - (s + z)) := by ring
      rw [e1]
      have b : ∀ (k : ℤ) (d : ℚ), |k| ≤ 10 → |d| ≤ 1 / 10 ^ 15 → |(k : ℚ) * d| ≤ 10 / 10 ^ 15 := fun k d hk hd => by
        rw [abs_mul]
        have : |(k : ℚ)| ≤ 10 := by rw [← Int.cast_abs]; exact_mod_cast hk
        calc |(k : ℚ)| * |d| ≤ 10 * (1 / 10 ^ 15) := mul_le_mul this hd (abs_nonneg _) (by norm_num)
          _ = _ := by norm_num
      have b1 := b _ _ ha.1 w1
      have b2 := b _ _ ha.2.1 w2
      have b3 := b _ _ ha.2.2 w3
      rw [abs_le] at *
      constructor <;> linarith
    have hsm := hs.small _ hg
    obtain ⟨c1, c2, c3⟩ := hs.clear _ hg y hy
    exact ⟨row _ _ _ _ (hsm _ (by simp)) ht.1 c1, row _ _ _ _ (hsm _ (by simp)) ht.2.1 c2, row _ _ _ _ (hsm _ (by simp)) ht.2.2 c3⟩

theorem ogen_doubled {e : Ext} {c : GCell} (h : TamePos c.positions) (hs : SpgAgrees e c) :
    OGen.new64 c.doubled (e.symmetry c.doubled) (e.wyckoffs c.doubled) =
      (OGen.new c (e.symmetry c) (e.wyckoffs c)).map fun g => { g with init := g.init.doubled } := by
  unfold OGen.new64 OGen.new
  rw [symmetry_doubled h hs, hs.wyckoffs]
  cases c.symmetryPermutation (e.symmetry c) <;> rfl

/-! ## distances -/

theorem fl64_abs_le {t B : ℚ} (hB : IsDouble B) (ht : |t| ≤ B) : |fl64 t| ≤ B := by
  have hB' : IsDouble (-B) := by
    have := fl64_isDouble (-B)
    rwa [fl64_neg, fl64_double hB] at this
  have h1 := fl64_nearest t B hB
  have h2 := fl64_nearest t (-B) hB'
  rw [abs_le] at ht ⊢
  rw [abs_of_nonneg (by linarith : 0 ≤ B - t), abs_le] at h1
  rw [abs_of_nonpos (by linarith : -B - t ≤ 0), abs_le] at h2
  constructor <;> linarith

theorem prod_close {x x' l l' : ℚ} (hx : |x| ≤ 2) (hl : |l| ≤ 100) (h1 : |x' - x| ≤ 1 / 10 ^ 15) (h2 : |l' - l| ≤ 1 / 10 ^ 13) :
    |x' * l' - x * l| ≤ 1 / 10 ^ 12 ∧ |x * l| ≤ 200 := by
  have e : x' * l' - x * l = x * (l' - l) + (x' - x) * l + (x' - x) * (l' - l) := by ring
  have a1 : |x * (l' - l)| ≤ 2 * (1 / 10 ^ 13) := by rw [abs_mul]; exact mul_le_mul hx h2 (abs_nonneg _) (by norm_num)
  have a2 : |(x' - x) * l| ≤ 1 / 10 ^ 15 * 100 := by rw [abs_mul]; exact mul_le_mul h1 hl (abs_nonneg _) (by norm_num)
  have a3 : |(x' - x) * (l' - l)| ≤ 1 / 10 ^ 15 * (1 / 10 ^ 13) := by rw [abs_mul]; exact mul_le_mul h1 h2 (abs_nonneg _) (by norm_num)
  refine ⟨?_, ?_⟩
  · rw [e]
    rw [abs_le] at *
    constructor <;> linarith
  · rw [abs_mul]
    have := mul_le_mul hx hl (abs_nonneg _) (by norm_num : (0 : ℚ) ≤ 2)
    linarith

theorem cart_close {L : M3 ℚ} {x x' : V3 ℚ} (hL : AllM (fun t => |t| ≤ 100) L) (hx : All3 (fun t => |t| ≤ 2) x) (h : Within (1 / 10 ^ 15) x x') :
    Within (3 / 10 ^ 12) (cartesian L x) (cartesian (dM L) x') ∧ All3 (fun t => |t| ≤ 600) (cartesian L x) := by
  obtain ⟨⟨a1, a2, a3⟩, ⟨b1, b2, b3⟩, c1, c2, c3⟩ := hL
  obtain ⟨x1, x2, x3⟩ := hx
  obtain ⟨w1, w2, w3⟩ := h
  have key : ∀ {p q r p' q' r' : ℚ}, |p' - p| ≤ 1 / 10 ^ 12 ∧ |p| ≤ 200 → |q' - q| ≤ 1 / 10 ^ 12 ∧ |q| ≤ 200 → |r' - r| ≤ 1 / 10 ^ 12 ∧ |r| ≤ 200 →
      |p' + q' + r' - (p + q + r)| ≤ 3 / 10 ^ 12 ∧ |p + q + r| ≤ 600 := by
    intro p q r p' q' r' hp hq hr
    simp only [abs_le] at *
    refine ⟨⟨?_, ?_⟩, ?_, ?_⟩ <;> linarith
  have k1 := key (prod_close x1 a1 w1 (four_close a1)) (prod_close x2 b1 w2 (four_close b1)) (prod_close x3 c1 w3 (four_close c1))
  have k2 := key (prod_close x1 a2 w1 (four_close a2)) (prod_close x2 b2 w2 (four_close b2)) (prod_close x3 c2 w3 (four_close c2))
  have k3 := key (prod_close x1 a3 w1 (four_close a3)) (prod_close x2 b3 w2 (four_close b3)) (prod_close x3 c3 w3 (four_close c3))
  exact ⟨⟨k1.1, k2.1, k3.1⟩, k1.2, k2.2, k3.2⟩

theorem sq_close {a a' : ℚ} (ha : |a| ≤ 1200) (h : |a' - a| ≤ 1 / 10 ^ 11) : |a' ^ 2 - a ^ 2| ≤ 1 / 10 ^ 7 := by
  have e : a' ^ 2 - a ^ 2 = (a' - a) * (a' + a) := by ring
  have h2 : |a' + a| ≤ 2401 := by rw [abs_le] at *; constructor <;> linarith
  rw [e, abs_mul]
  calc |a' - a| * |a' + a| ≤ 1 / 10 ^ 11 * 2401 := mul_le_mul h h2 (abs_nonneg _) (by norm_num)
    _ ≤ _ := by norm_num

theorem dist_close {u v u' v' : V3 ℚ} (hu : Within (3 / 10 ^ 12) u u') (hv : Within (3 / 10 ^ 12) v v') (bu : All3 (fun t => |t| ≤ 600) u)
    (bv : All3 (fun t => |t| ≤ 600) v) : |distSq u' v' - distSq u v| ≤ 3 / 10 ^ 7 := by
  have key : ∀ {a b a' b' : ℚ}, |a' - a| ≤ 3 / 10 ^ 12 → |b' - b| ≤ 3 / 10 ^ 12 → |a| ≤ 600 → |b| ≤ 600 → |(a' - b') ^ 2 - (a - b) ^ 2| ≤ 1 / 10 ^ 7 := by
    intro a b a' b' h1 h2 h3 h4
    apply sq_close <;> rw [abs_le] at * <;> constructor <;> linarith
  have k1 := key hu.1 hv.1 bu.1 bv.1
  have k2 := key hu.2.1 hv.2.1 bu.2.1 bv.2.1
  have k3 := key hu.2.2 hv.2.2 bu.2.2 bv.2.2
  unfold distSq
  rw [abs_le] at *
  constructor <;> linarith

theorem near_cast {t : V3 ℤ} (h : Near t) : |(t.1 : ℚ)| ≤ 1 ∧ |(t.2.1 : ℚ)| ≤ 1 ∧ |(t.2.2 : ℚ)| ≤ 1 := by
  have k : ∀ a : ℤ, -1 ≤ a ∧ a ≤ 1 → |(a : ℚ)| ≤ 1 := fun a ha => abs_le.2 ⟨by exact_mod_cast ha.1, by exact_mod_cast ha.2⟩
  exact ⟨k _ h.1, k _ h.2.1, k _ h.2.2⟩

/-- how far the squared distances and the squared bound move -/
theorem margin_doubled {c : GCell} (hL : AllM (fun t => |t| ≤ 100) c.lattice) (h : TamePos c.positions) {r : ℚ} (hr : |r| ≤ 1000) {p q : V3 ℚ} {t : V3 ℤ}
    (hp : p ∈ c.positions) (hq : q ∈ c.positions) (ht : Near t) :
    |distSq (cartesian (dM c.lattice) (dV p)) (cartesian (dM c.lattice) (shift (dV q) t)) - distSq (cartesian c.lattice p) (cartesian c.lattice (shift q t))| ≤
      3 / 10 ^ 7 ∧ |fl64 r ^ 2 - r ^ 2| ≤ 1 / 10 ^ 7 := by
  obtain ⟨p1, p2, p3⟩ := h p hp
  obtain ⟨q1, q2, q3⟩ := h q hq
  obtain ⟨t1, t2, t3⟩ := near_cast ht
  have w : ∀ s : ℚ, |s| ≤ 1 → |s| ≤ 2 := fun s hs => hs.trans (by norm_num)
  have w2 : ∀ {s u : ℚ}, |s| ≤ 1 → |u| ≤ 1 → |s + u| ≤ 2 := fun {s u} h1 h2 => by rw [abs_le] at *; constructor <;> linarith
  have a := cart_close (x := p) (x' := dV p) hL ⟨w _ p1.1, w _ p2.1, w _ p3.1⟩ ⟨one_close p1.1, one_close p2.1, one_close p3.1⟩
  have b := cart_close (x := shift q t) (x' := shift (dV q) t) hL ⟨w2 q1.1 t1, w2 q2.1 t2, w2 q3.1 t3⟩
    (by
      have k : ∀ s u : ℚ, |s| ≤ 1 → |fl64 s + u - (s + u)| ≤ 1 / 10 ^ 15 := fun s u hs => by
        rw [show fl64 s + u - (s + u) = fl64 s - s by ring]; exact one_close hs
      exact ⟨k _ _ q1.1, k _ _ q2.1, k _ _ q3.1⟩)
  refine ⟨dist_close a.1 b.1 a.2 b.2, sq_close (hr.trans (by norm_num)) ?_⟩
  exact (fl64_err_le (B := 1000) (by norm_num) hr).trans (by norm_num)

theorem minDist_doubled (sq : ℚ → ℚ) (hq : ∀ x, 0 ≤ x → 0 ≤ sq x ∧ |sq x ^ 2 - x| ≤ (x + 1) / 10 ^ 14) {c : GCell} (hb : Built c)
    (hL : AllM (fun t => |t| ≤ 100) c.lattice) (h : TamePos c.positions) (el : Specie) {r : ℚ} (hr : ClearDistances c r) :
    minDistSatisfied64 sq el (fl64 r) c.doubled = minDistSatisfied el r c := by
  have hne : c.positions ≠ [] := hb.ne_nil
  have hlen : c.positions.length = c.numbers.length := hb.length.symm
  have hne' : c.doubled.positions ≠ [] := by simpa [GCell.doubled] using hne
  have hlen' : c.doubled.positions.length = c.doubled.numbers.length := by simpa [GCell.doubled] using hlen
  have hget : ∀ {i : ℕ} {p' : V3 ℚ}, c.doubled.positions[i]? = some p' → ∃ p, c.positions[i]? = some p ∧ p' = dV p := by
    intro i p' hp
    rw [show c.doubled.positions = c.positions.map dV from rfl, List.getElem?_map, Option.map_eq_some_iff] at hp
    obtain ⟨p, hp, rfl⟩ := hp
    exact ⟨p, hp, rfl⟩
  have hget' : ∀ {i : ℕ} {p : V3 ℚ}, c.positions[i]? = some p → c.doubled.positions[i]? = some (dV p) := by
    intro i p hp
    rw [show c.doubled.positions = c.positions.map dV from rfl, List.getElem?_map, hp]
    rfl
  refine (C93_min_distance sq hq c.doubled hne' hlen' ?_ ?_ el (fl64 r) ?_).trans ?_
  · have k : ∀ t : ℚ, |t| ≤ 100 → |fl64 t| ≤ 100 := fun t ht => fl64_abs_le ⟨100, 0, by norm_num, by norm_num, by norm_num⟩ ht
    obtain ⟨⟨a1, a2, a3⟩, ⟨b1, b2, b3⟩, c1, c2, c3⟩ := hL
    exact ⟨⟨k _ a1, k _ a2, k _ a3⟩, ⟨k _ b1, k _ b2, k _ b3⟩, k _ c1, k _ c2, k _ c3⟩
  · intro p hp
    obtain ⟨y, hy, rfl⟩ := List.mem_map.1 hp
    have k : ∀ t : ℚ, |t| ≤ 1 → |fl64 t| ≤ 1 := fun t ht => fl64_abs_le ⟨1, 0, by norm_num, by norm_num, by norm_num⟩ ht
    obtain ⟨h1, h2, h3⟩ := h y hy
    exact ⟨k _ h1.1, k _ h2.1, k _ h3.1⟩
  · intro i j p' q' t hp _ hq' _ ht _
    obtain ⟨p, hp2, rfl⟩ := hget hp
    obtain ⟨q, hq2, rfl⟩ := hget hq'
    have hm := hr.margin p q t (List.mem_of_getElem? hp2) (List.mem_of_getElem? hq2) ht
    obtain ⟨m1, m2⟩ := margin_doubled hL h hr.bound (List.mem_of_getElem? hp2) (List.mem_of_getElem? hq2) ht
    show 1 / 10 ^ 6 < |distSq (cartesian (dM c.lattice) (dV p)) (cartesian (dM c.lattice) (shift (dV q) t)) - fl64 r ^ 2|
    rw [lt_abs] at hm ⊢
    rw [abs_le] at m1 m2
    rcases hm with hm | hm
    · left; linarith
    · right; linarith
  · obtain ⟨n1, y1⟩ := C36_min_distance c hne hlen el r
    obtain ⟨n2, y2⟩ := C36_min_distance c.doubled hne' hlen' el (fl64 r)
    have hn : c.doubled.numbers = c.numbers := rfl
    rw [hn] at n2 y2
    by_cases hel : el.Z ∈ c.numbers
    · obtain ⟨b1, e1, f1⟩ := y1 hel
      obtain ⟨b2, e2, f2⟩ := y2 hel
      have hfar : ∀ p q t, p ∈ c.positions → q ∈ c.positions → Near t →
          (Farther (fl64 r) (cartesian (dM c.lattice) (dV p)) (cartesian (dM c.lattice) (shift (dV q) t)) ↔
            Farther r (cartesian c.lattice p) (cartesian c.lattice (shift q t))) := by
        intro p q t hp hq' ht
        have hm := hr.margin p q t hp hq' ht
        obtain ⟨m1, m2⟩ := margin_doubled hL h hr.bound hp hq' ht
        have hsign : fl64 r < 0 ↔ r < 0 := by
          have h0 := hr.margin p p 0 hp hp ⟨by decide, by decide, by decide⟩
          have z : distSq (cartesian c.lattice p) (cartesian c.lattice (shift p 0)) = 0 := by
            simp [distSq, shift]
          rw [z, zero_sub, abs_neg, abs_of_nonneg (sq_nonneg r)] at h0
          have hcl := (fl64_err_le (B := 1000) (by norm_num) hr.bound)
          rw [abs_le] at hcl
          constructor
          · intro hlt
            by_contra hge
            rw [not_lt] at hge
            nlinarith
          · intro hlt
            by_contra hge
            rw [not_lt] at hge
            nlinarith
        have hd : fl64 r ^ 2 < distSq (cartesian (dM c.lattice) (dV p)) (cartesian (dM c.lattice) (shift (dV q) t)) ↔
            r ^ 2 < distSq (cartesian c.lattice p) (cartesian c.lattice (shift q t)) := by
          rw [lt_abs] at hm
          rw [abs_le] at m1 m2
          rcases hm with hm | hm
          · constructor <;> intro _ <;> linarith
          · constructor <;> intro _ <;> linarith
        unfold Farther
        rw [hsign, hd]
      rw [e1, e2]
      congr 1
      rw [Bool.eq_iff_iff, f1, f2]
      constructor
      · intro H i j p q t hp hi hq' hj ht hij
        exact (hfar p q t (List.mem_of_getElem? hp) (List.mem_of_getElem? hq') ht).1 (H i j _ _ t (hget' hp) hi (hget' hq') hj ht hij)
      · intro H i j p' q' t hp hi hq' hj ht hij
        obtain ⟨p, hp2, rfl⟩ := hget hp
        obtain ⟨q, hq2, rfl⟩ := hget hq'
        exact (hfar p q t (List.mem_of_getElem? hp2) (List.mem_of_getElem? hq2) ht).2 (H i j p q t hp2 hi hq2 hj ht hij)
    · rw [n1 hel, n2 hel]

/-! ## writing -/

/-- two cells whose numbers are written alike -/
structure SteadyCell (c c' : GCell) : Prop where
  lattice : SteadyM c.lattice c'.lattice
  positions : List.Forall₂ Steady3 c.positions c'.positions
  numbers : c'.numbers = c.numbers

theorem Spec.Steady3.line {x y : V3 ℚ} (h : Steady3 x y) : numberLine y = numberLine x := by
  unfold numberLine fmt106
  rw [h.1.fixed6, h.2.1.fixed6, h.2.2.fixed6]

theorem Spec.Steady3.six {x y : V3 ℚ} (h : Steady3 x y) : V3.map (npAround 6) y = dV (V3.map (around 6) x) := by
  unfold dV V3.map
  rw [h.1.six, h.2.1.six, h.2.2.six]

theorem lines_steady {ps qs : List (V3 ℚ)} (h : List.Forall₂ Steady3 ps qs) : qs.map numberLine = ps.map numberLine := by
  induction h with
  | nil => rfl
  | cons h _ ih => rw [List.map_cons, List.map_cons, h.line, ih]

theorem six_steady {ps qs : List (V3 ℚ)} (h : List.Forall₂ Steady3 ps qs) :
    qs.map (V3.map (npAround 6)) = (ps.map (V3.map (around 6))).map dV := by
  induction h with
  | nil => rfl
  | cons h _ ih => rw [List.map_cons, List.map_cons, List.map_cons, h.six, ih]

/-- the atom lines depend on the positions through their lines only -/
theorem atomLines_eq (ns : List ℤ) (ps : List (V3 ℚ)) (names : List String) :
    ((((ns.zip (ps.zip names)).insertionSort fun a b => a.1 ≤ b.1).filter fun t => t.1 ≠ 0).map fun t => numberLine t.2.1 ++ [' '] ++ t.2.2.toList) =
      ((((ns.zip ((ps.map numberLine).zip names)).insertionSort fun a b => a.1 ≤ b.1).filter fun t => t.1 ≠ 0).map fun t => t.2.1 ++ [' '] ++ t.2.2.toList) := by
  have e : ns.zip ((ps.map numberLine).zip names) = (ns.zip (ps.zip names)).map fun t => (t.1, numberLine t.2.1, t.2.2) := by
    rw [List.zip_map_left, List.zip_map_right]
    refine List.map_congr_left fun t _ => ?_
    rfl
  have hs := List.map_insertionSort (fun a b : ℤ × V3 ℚ × String => a.1 ≤ b.1) (fun a b : ℤ × List Char × String => a.1 ≤ b.1)
    (fun t => (t.1, numberLine t.2.1, t.2.2)) (ns.zip (ps.zip names)) (fun a _ b _ => Iff.rfl)
  rw [e, ← hs, List.filter_map, List.map_map]
  rfl

theorem write_steady {c c' : GCell} (h : SteadyCell c c') (path : List Char) (fmt : Option (List Char)) :
    writeFile64 c' path fmt = (writeFile c path fmt).map FileContent.doubled := by
  have hv : vaspString c' 1 true = vaspString c 1 true := by
    unfold vaspString vaspLines
    rw [h.numbers]
    have hl : c'.lattice.toList.map numberLine = c.lattice.toList.map numberLine := by
      obtain ⟨h1, h2, h3⟩ := h.lattice
      simp only [V3.toList, List.map_cons, List.map_nil]
      rw [h1.line, h2.line, h3.line]
    rw [hl]
    simp only [atomLines_eq, lines_steady h.positions]
  have hy : yamlDoc64 c' = (yamlDoc c).map YDoc.doubled := by
    unfold yamlDoc64 yamlDoc
    rw [h.numbers, six_steady h.positions]
    have hl : V3.map (V3.map (npAround 6)) c'.lattice = dM (V3.map (V3.map (around 6)) c.lattice) := by
      obtain ⟨h1, h2, h3⟩ := h.lattice
      show (_, _, _) = (_, _, _)
      rw [h1.six, h2.six, h3.six]
      rfl
    rw [hl]
    cases atomNames c.numbers with
    | error e => rfl
    | ok names =>
      simp only [bind, Except.bind]
      cases orderedAtoms names with
      | error e => rfl
      | ok atoms =>
        have h1 : fl64 1 = 1 := fl64_double ⟨1, 0, by norm_num, by norm_num, by norm_num⟩
        simp only [pure, Except.pure, Except.map, YDoc.doubled, Option.map_some, h1]
  unfold writeFile64 writeFile
  cases dispatch path fmt with
  | error e => rfl
  | ok f =>
    cases f with
    | yaml =>
      simp only [bind, Except.bind, hy]
      cases yamlDoc c <;> rfl
    | vasp =>
      simp only [bind, Except.bind, hv]
      cases vaspString c 1 true <;> rfl

theorem tame_steady {c : GCell} (hL : AllM (fun t => |t| ≤ 100 ∧ Four t) c.lattice) (h : TamePos c.positions) : SteadyCell c c.doubled := by
  refine ⟨?_, ?_, rfl⟩
  · obtain ⟨⟨a1, a2, a3⟩, ⟨b1, b2, b3⟩, c1, c2, c3⟩ := hL
    have k : ∀ {t : ℚ}, |t| ≤ 100 ∧ Four t → Steady t (fl64 t) := fun h => four_steady h.1 h.2
    exact ⟨⟨k a1, k a2, k a3⟩, ⟨k b1, k b2, k b3⟩, k c1, k c2, k c3⟩
  · show List.Forall₂ _ c.positions (c.positions.map dV)
    rw [List.forall₂_map_right_iff, List.forall₂_same]
    intro x hx
    obtain ⟨h1, h2, h3⟩ := h x hx
    have k : ∀ {t : ℚ}, |t| ≤ 1 ∧ Four t ∧ Clear (1 / 10 ^ 5) t → Steady t (fl64 t) := fun h => four_steady (h.1.trans (by norm_num)) h.2.1
    exact ⟨k h1, k h2, k h3⟩

theorem new_steady {p p' : M3 ℚ × List (V3 ℚ) × List ℤ} (h : SteadyTuple p p') :
    SameOutcome SteadyCell (GCell.new p.1 p.2.1 p.2.2) (GCell.new64 p'.1 p'.2.1 p'.2.2) := by
  have hid : newIdSeq64 p'.2.1 = newIdSeq p.2.1 := by
    apply C87_images
    have := h.positions
    have hc := h.clear
    clear h
    generalize p.2.1 = ps at *
    generalize p'.2.1 = qs at *
    induction this with
    | nil => exact .nil
    | @cons x y ps qs hxy _ ih =>
      refine .cons ?_ (ih fun z hz => hc z (List.mem_cons_of_mem _ hz))
      obtain ⟨k1, k2, k3⟩ := hc x (by simp)
      have f : ∀ {s s' : ℚ}, Steady s s' → Clear (1 / 10 ^ 6) s → Faithful s s' := fun hs hcl =>
        ⟨hs.bound.trans (by norm_num), .inl ⟨hs.close, hcl⟩⟩
      exact ⟨f hxy.1 k1, f hxy.2.1 k2, f hxy.2.2 k3⟩
  unfold GCell.new GCell.new64
  rw [hid, h.numbers]
  refine (sameOutcome_refl _).bind ?_
  rintro idx _ rfl
  refine (fancy_near h.positions idx).bind fun qs qs' hq => ?_
  refine (sameOutcome_refl _).bind ?_
  rintro ns _ rfl
  exact .ok ⟨h.lattice, hq, rfl⟩

/-! ## files -/

theorem dictHas_map {α β γ} [DecidableEq α] (f : β → γ) (d : List (α × β)) (k : α) : dictHas (d.map fun kv => (kv.1, f kv.2)) k = dictHas d k := by
  unfold dictHas
  rw [List.any_map]
  rfl

theorem dictSet_map {α β γ} [DecidableEq α] (f : β → γ) (d : List (α × β)) (k : α) (v : β) :
    dictSet (d.map fun kv => (kv.1, f kv.2)) k (f v) = (dictSet d k v).map fun kv => (kv.1, f kv.2) := by
  unfold dictSet
  rw [dictHas_map]
  split
  · rw [List.map_map, List.map_map]
    refine List.map_congr_left fun kv _ => ?_
    simp only [Function.comp]
    split <;> rfl
  · simp

theorem write_doubled (fs : Fs) (p : List Char) (x : FileContent) : fs.doubled.write p x.doubled = (fs.write p x).doubled := by
  unfold Fs.write Fs.doubled
  rw [dictSet_map]

theorem has_doubled (fs : Fs) (p : List Char) : fs.doubled.has p = fs.has p := by
  unfold Fs.has Fs.doubled
  rw [dictHas_map]

theorem openDir_doubled (fs : Fs) (dir : List Char) : openDir fs.doubled dir = (openDir fs dir).map Fs.doubled := by
  unfold openDir
  rw [has_doubled]
  split <;> rfl

/-! ## the loop -/

/-- the structures of a run and what is assumed about spglib and the distances -/
structure RunOk (e : Ext) (refined : Bool) (tr : Option (Specie × ℚ)) (c : GCell) : Prop where
  built : Built c
  lattice : AllM (fun t => |t| ≤ 100 ∧ Four t) c.lattice
  positions : TamePos c.positions
  primitive : c.doubled.isPrimitive e = c.isPrimitive e
  refine' : refined = true → Option.Rel SteadyTuple (e.standardize (c.lattice, c.positions, c.numbers))
    (e.standardize (c.doubled.lattice, c.doubled.positions, c.numbers))
  distances : ∀ t ∈ tr, ClearDistances c t.2

/-- the bound of the restriction as a double -/
def dTr (tr : Option (Specie × ℚ)) : Option (Specie × ℚ) := tr.map fun t => (t.1, fl64 t.2)

theorem condition_doubled {e : Ext} {sq : ℚ → ℚ} (hq : ∀ x, 0 ≤ x → 0 ≤ sq x ∧ |sq x ^ 2 - x| ≤ (x + 1) / 10 ^ 14) (mpr : Bool) {refined : Bool}
    {tr : Option (Specie × ℚ)} {c : GCell} (h : RunOk e refined tr c) :
    appCondition64 e sq mpr (dTr tr) c.doubled = appCondition e mpr tr c := by
  have hL : AllM (fun t => |t| ≤ 100) c.lattice := by
    obtain ⟨⟨a1, a2, a3⟩, ⟨b1, b2, b3⟩, c1, c2, c3⟩ := h.lattice
    exact ⟨⟨a1.1, a2.1, a3.1⟩, ⟨b1.1, b2.1, b3.1⟩, c1.1, c2.1, c3.1⟩
  cases tr with
  | none =>
    cases mpr with
    | false => rfl
    | true => exact h.primitive
  | some t =>
    have hm := minDist_doubled sq hq h.built hL h.positions t.1 (h.distances t rfl)
    cases mpr with
    | false => exact hm
    | true =>
      show (do if ← c.doubled.isPrimitive e then minDistSatisfied64 sq t.1 (fl64 t.2) c.doubled else return false) = _
      rw [h.primitive, hm]
      rfl

theorem writeOne_doubled {e : Ext} {refined : Bool} {tr : Option (Specie × ℚ)} (outmode dir suffix : List Char) {c : GCell} (h : RunOk e refined tr c)
    (fs : Fs) :
    occWriteOne64 e refined outmode dir suffix c.doubled fs.doubled = (occWriteOne e refined outmode dir suffix c fs).map Fs.doubled := by
  have hcell : SameOutcome SteadyCell (maybeRefined e refined c) (maybeRefined64 e refined c.doubled) := by
    unfold maybeRefined maybeRefined64
    cases refined with
    | false => exact .ok (tame_steady h.lattice h.positions)
    | true =>
      simp only [if_true]
      have hr := h.refine' rfl
      unfold GCell.getRefinedPcell GCell.getRefinedPcell64
      rw [show c.doubled.numbers = c.numbers from rfl]
      generalize e.standardize (c.lattice, c.positions, c.numbers) = a at hr
      generalize e.standardize (c.doubled.lattice, c.doubled.positions, c.numbers) = b at hr
      cases hr with
      | none => exact .error _
      | some hr => exact new_steady hr
  unfold occWriteOne64 occWriteOne
  generalize maybeRefined e refined c = x at hcell
  generalize maybeRefined64 e refined c.doubled = y at hcell
  cases hcell with
  | error er => rfl
  | @ok d d' hd =>
    have hcm : d'.comment = d.comment := by unfold GCell.comment; rw [hd.numbers]
    simp only [bind, Except.bind, hcm]
    cases d.comment with
    | error er => rfl
    | ok cm =>
      simp only [write_steady hd]
      cases writeFile d (pathJoin dir (structureName cm suffix outmode)) none with
      | error er => rfl
      | ok content => simp only [Except.map, pure, Except.pure, write_doubled]

theorem loop_doubled {e : Ext} {sq : ℚ → ℚ} (hq : ∀ x, 0 ≤ x → 0 ≤ sq x ∧ |sq x ^ 2 - x| ≤ (x + 1) / 10 ^ 14) (mpr : Bool) {refined : Bool}
    {tr : Option (Specie × ℚ)} (outmode dir : List Char) {cs : List GCell} (h : ∀ c ∈ cs, RunOk e refined tr c) (k : ℕ) (fs : Fs) :
    occLoop64 e sq mpr (dTr tr) refined outmode dir (cs.map GCell.doubled) k fs.doubled =
      ((occLoop e mpr tr refined outmode dir cs k fs).1.doubled, (occLoop e mpr tr refined outmode dir cs k fs).2) := by
  induction cs generalizing k fs with
  | nil => rfl
  | cons c cs ih =>
    have ih' := fun k fs => ih (fun d hd => h d (List.mem_cons_of_mem _ hd)) k fs
    rw [List.map_cons, occLoop64, occLoop, condition_doubled hq mpr (h c (by simp))]
    cases appCondition e mpr tr c with
    | error er => rfl
    | ok b =>
      cases b with
      | false => exact ih' k fs
      | true =>
        simp only [writeOne_doubled outmode dir (e.choices k) (h c (by simp)) fs]
        cases occWriteOne e refined outmode dir (e.choices k) c fs with
        | error er => rfl
        | ok fs' => exact ih' (k + 1) fs'

/-! ## reading -/

theorem fl64_1 : fl64 1 = 1 := fl64_double ⟨1, 0, by norm_num, by norm_num, by norm_num⟩

theorem map3_eq {f g : ℚ → ℚ} {v : V3 ℚ} (h1 : f v.1 = g v.1) (h2 : f v.2.1 = g v.2.1) (h3 : f v.2.2 = g v.2.2) : V3.map f v = V3.map g v := by
  unfold V3.map
  rw [h1, h2, h3]

theorem mapM3_eq {f g : ℚ → ℚ} {P : ℚ → Prop} (h : ∀ t, P t → f t = g t) {m : M3 ℚ} (hm : AllM P m) : V3.map (V3.map f) m = V3.map (V3.map g) m := by
  obtain ⟨⟨a1, a2, a3⟩, ⟨b1, b2, b3⟩, c1, c2, c3⟩ := hm
  unfold V3.map
  simp only [h _ a1, h _ a2, h _ a3, h _ b1, h _ b2, h _ b3, h _ c1, h _ c2, h _ c3]

theorem around4_close (t : ℚ) : |around 4 t - t| ≤ 1 / 10 ^ 4 := by
  unfold around
  have := rint_sub_le (t * 10 ^ 4)
  generalize rint (t * 10 ^ 4) = r at *
  rw [abs_le] at *; constructor <;> linarith

/-- what the two readers make of the numbers of a tame input -/
theorem input_doubled {l : M3 ℚ} {ps : List (V3 ℚ)} (h : TameInput l ps) :
    AllM (fun t => |t| ≤ 100 ∧ Four t) (V3.map (V3.map (around 4)) l) ∧ TamePos (ps.map (V3.map (around 4))) ∧
    V3.map (V3.map fun x => npAround 4 (fl64 x)) l = dM (V3.map (V3.map (around 4)) l) ∧
    (ps.map (V3.map fun x => npAround 4 (fl64 x))) = (ps.map (V3.map (around 4))).map dV := by
  refine ⟨?_, ?_, ?_, ?_⟩
  · have k : ∀ {t : ℚ}, (|t| ≤ 99 ∧ ∀ n : ℤ, 1 / 10 ^ 3 < |t * 10 ^ 4 - (n + 1 / 2)|) → |around 4 t| ≤ 100 ∧ Four (around 4 t) := by
      intro t ht
      have h1 := around4_close t
      have h2 := ht.1
      refine ⟨?_, four_around t⟩
      rw [abs_le] at *; constructor <;> linarith
    obtain ⟨⟨a1, a2, a3⟩, ⟨b1, b2, b3⟩, c1, c2, c3⟩ := h.lattice
    exact ⟨⟨k a1, k a2, k a3⟩, ⟨k b1, k b2, k b3⟩, k c1, k c2, k c3⟩
  · intro x hx
    obtain ⟨y, hy, rfl⟩ := List.mem_map.1 hx
    obtain ⟨h1, h2, h3⟩ := h.positions y hy
    exact ⟨⟨h1.2.1, four_around _, h1.2.2.2⟩, ⟨h2.2.1, four_around _, h2.2.2.2⟩, ⟨h3.2.1, four_around _, h3.2.2.2⟩⟩
  · have e : dM (V3.map (V3.map (around 4)) l) = V3.map (V3.map fun t => fl64 (around 4 t)) l := rfl
    rw [e]
    exact mapM3_eq (fun t ht => npAround4_read (ht.1.trans (by norm_num)) ht.2) h.lattice
  · rw [List.map_map]
    refine List.map_congr_left fun x hx => ?_
    obtain ⟨h1, h2, h3⟩ := h.positions x hx
    have k : ∀ {t : ℚ}, |t| ≤ 2 → (∀ n : ℤ, 1 / 10 ^ 3 < |t * 10 ^ 4 - (n + 1 / 2)|) → npAround 4 (fl64 t) = fl64 (around 4 t) :=
      fun h1 h2 => npAround4_read (h1.trans (by norm_num)) h2
    show (npAround 4 (fl64 x.1), npAround 4 (fl64 x.2.1), npAround 4 (fl64 x.2.2)) = _
    rw [k h1.1 h1.2.2.1, k h2.1 h2.2.2.1, k h3.1 h3.2.2.1]
    rfl

theorem fl64_dM (m : M3 ℚ) : V3.map (V3.map fun x => fl64 (x * 1)) (dM m) = dM m := by
  simp only [mul_one]
  unfold dM dV V3.map
  simp only [fl64_fl64]

/-- reading a file -/
theorem read_doubled (root : ℚ → ℚ) (factor : ℚ → M3 ℚ → ℚ) {content : FileContent} (h : TameContent content) (fname : List Char)
    (fmt : Option (List Char)) :
    readFile64 factor content.doubled fname fmt = (readFile root content fname fmt).map GCell.doubled ∧
      ∀ c, readFile root content fname fmt = .ok c → Built c ∧ Tame c := by
  have build : ∀ (l : M3 ℚ) (ps : List (V3 ℚ)) (ns : List ℤ), AllM (fun t => |t| ≤ 100 ∧ Four t) l → TamePos ps → ∀ c, GCell.new l ps ns = .ok c →
      Built c ∧ Tame c := by
    intro l ps ns hl hp c hc
    obtain ⟨-, -, hps, -, hl', -⟩ := new_ok_inv hc
    refine ⟨⟨_, _, _, hc⟩, hl' ▸ hl, fun x hx => hp x ?_⟩
    rw [fancy_ok_iff] at hps
    have : some x ∈ c.positions.map some := List.mem_map_of_mem hx
    rw [← hps] at this
    obtain ⟨j, -, hj⟩ := List.mem_map.1 this
    exact List.mem_of_getElem? hj
  unfold readFile64 readFile
  cases hd : dispatch fname fmt with
  | error er => exact ⟨rfl, fun c hc => by cases hc⟩
  | ok f =>
    cases content with
    | text s =>
      cases f with
      | yaml => exact ⟨rfl, fun c hc => by cases hc⟩
      | vasp =>
        show vaspReadCell64 factor s = (vaspReadCell root s).map GCell.doubled ∧ ∀ c, vaspReadCell root s = .ok c → Built c ∧ Tame c
        unfold vaspReadCell64 vaspReadCell vaspFromString64 vaspFromString
        cases hp : vaspParse s with
        | error er => exact ⟨rfl, fun c hc => by cases hc⟩
        | ok r =>
          obtain ⟨z, l, ps, ns⟩ := r
          obtain ⟨rfl, hin⟩ := h z l ps ns hp
          obtain ⟨i1, i2, i3, i4⟩ := input_doubled hin
          have hneg : ¬ (1 : ℚ) < 0 := by norm_num
          have hsc : scaleLattice root (1 : ℚ) (V3.map (V3.map (around 4)) l) = V3.map (V3.map (around 4)) l := by
            unfold scaleLattice
            rw [if_neg hneg]
            simp [smulM, V3.map]
          simp only [bind, Except.bind, pure, Except.pure, fl64_1, if_neg hneg, i3, i4, fl64_dM, hsc]
          exact ⟨new64_doubled _ i2 ns, build _ _ _ i1 i2⟩
    | doc d =>
      cases f with
      | vasp => exact ⟨rfl, fun c hc => by cases hc⟩
      | yaml =>
        show yamlReadCell64 d.doubled = (yamlReadCell d).map GCell.doubled ∧ ∀ c, yamlReadCell d = .ok c → Built c ∧ Tame c
        unfold yamlReadCell64 yamlReadCell yamlFromDoc64 yamlFromDoc
        obtain ⟨hz, hin⟩ := h
        obtain ⟨cm, l, ps, ns, z⟩ := d
        cases l with
        | none => exact ⟨rfl, fun c hc => by cases hc⟩
        | some l =>
          cases z with
          | none => exact ⟨rfl, fun c hc => by cases hc⟩
          | some z =>
            cases ps with
            | none => exact ⟨rfl, fun c hc => by cases hc⟩
            | some ps =>
              cases ns with
              | none => exact ⟨rfl, fun c hc => by cases hc⟩
              | some ns =>
                obtain rfl := hz z rfl
                obtain ⟨i1, i2, i3, i4⟩ := input_doubled (hin l ps rfl rfl)
                have e1 : V3.map (V3.map fun x => npAround 4 (fl64 (x * 1))) (dM l) = dM (V3.map (V3.map (around 4)) l) := by
                  rw [← i3]
                  simp only [mul_one]
                  unfold dM dV V3.map
                  simp only [fl64_fl64]
                have e2 : (ps.map dV).map (V3.map (npAround 4)) = (ps.map (V3.map (around 4))).map dV := by
                  rw [← i4, List.map_map]
                  rfl
                have e3 : V3.map (V3.map fun x => around 4 (x * 1)) l = V3.map (V3.map (around 4)) l := by simp only [mul_one]
                simp only [bind, Except.bind, pure, Except.pure, YDoc.doubled, Option.map_some, need, fl64_1, e1, e2, e3]
                exact ⟨new64_doubled _ i2 ns, build _ _ _ i1 i2⟩

/-! ## runs -/

/-- the application object with doubles -/
def dApp (a : OccApp) : OccApp := { a with cell := a.cell.doubled, tr := a.tr.map fun t => (t.1, fl64 t.2) }

theorem init_doubled (e : Ext) (factor : ℚ → M3 ℚ → ℚ) (dflt : ℕ → ℤ) (infile : List Char) {content : FileContent} (h : TameContent content) (o : OccOpts) :
    occInit64 factor dflt infile content.doubled o.doubled = (occInit e dflt infile content o).map dApp ∧
      ∀ a, occInit e dflt infile content o = .ok a → Built a.cell ∧ Tame a.cell ∧ readFile e.root content infile none = .ok a.cell ∧
        a.tr = o.trs.head? ∧ a.refined = o.refined := by
  obtain ⟨h1, h2⟩ := read_doubled e.root factor h infile none
  constructor
  · unfold occInit64 occInit
    rw [h1]
    cases readFile e.root content infile none with
    | error er => rfl
    | ok cell =>
      simp only [bind, Except.bind, Except.map]
      have hc : commentOr o.doubled.comment cell.doubled = commentOr o.comment cell := rfl
      rw [hc]
      cases commentOr o.comment cell with
      | error er => rfl
      | ok cm =>
        simp only
        have ht : targetZ cell.doubled.numbers o.doubled.element = targetZ cell.numbers o.element := rfl
        rw [ht]
        cases targetZ cell.numbers o.element with
        | error er => rfl
        | ok z =>
          simp only [OccOpts.doubled]
          cases o.speckle with
          | none =>
            simp only
            cases Specie.ofSymbol "G" with
            | error er => rfl
            | ok sp =>
              simp only
              cases Specie.fromNum z with
              | error er => rfl
              | ok ele =>
                simp only [pure, Except.pure, dApp, List.head?_map]
                rfl
          | some s =>
            simp only
            cases Specie.ofSymbol s with
            | error er => rfl
            | ok sp =>
              simp only
              cases Specie.fromNum z with
              | error er => rfl
              | ok ele =>
                simp only [pure, Except.pure, dApp, List.head?_map]
                rfl
  · intro a ha
    obtain ⟨cell, hc, ha⟩ := bind_ok ha
    obtain ⟨cm, -, ha⟩ := bind_ok ha
    obtain ⟨z, -, ha⟩ := bind_ok ha
    obtain ⟨sp, -, ha⟩ := bind_ok ha
    obtain ⟨ele, -, ha⟩ := bind_ok ha
    obtain rfl := Except.ok.inj ha
    exact ⟨(h2 cell hc).1, (h2 cell hc).2, hc, rfl, rfl⟩

theorem parseTr_doubled (tr : Option (String × ℚ)) : parseTr (tr.map fun t => (t.1, fl64 t.2)) = (parseTr tr).map dTr := by
  cases tr with
  | none => rfl
  | some t =>
    show (do let sp ← Specie.ofSymbol t.1; return some (sp, fl64 t.2)) = (do let sp ← Specie.ofSymbol t.1; return some (sp, t.2) : Py _).map dTr
    cases Specie.ofSymbol t.1 <;> rfl

theorem run_doubled {e : Ext} {sq : ℚ → ℚ} (hq : ∀ x, 0 ≤ x → 0 ≤ sq x ∧ |sq x ^ 2 - x| ≤ (x + 1) / 10 ^ 14)
    {structures structures64 : OccApp → OGen → Py (List GCell)} {a : OccApp} (ht : Tame a.cell) (hs : SpgAgrees e a.cell)
    (hr : a.refined = true → RefineAgrees e a.cell) (hd : ∀ t ∈ a.tr, ClearDistances a.cell t.2)
    (h1 : ∀ g : OGen, g.init = a.cell → structures64 (dApp a) { g with init := g.init.doubled } = (structures a g).map (List.map GCell.doubled))
    (h2 : ∀ g : OGen, g.init = a.cell → ∀ cs, structures a g = .ok cs → BaseCells a.cell.lattice a.cell.positions cs) (fs : Fs) :
    occRun64 e sq structures64 (dApp a) fs.doubled = ((occRun e structures a fs).1.doubled, (occRun e structures a fs).2) := by
  unfold occRun64 occRun
  have hdir : structuresDir e (dApp a).comment (e.choices 0) = structuresDir e a.comment (e.choices 0) := rfl
  rw [hdir, openDir_doubled]
  cases openDir fs (structuresDir e a.comment (e.choices 0)) with
  | error er => rfl
  | ok fs1 =>
    simp only [Except.map]
    have hprep : occPrepare64 e (structures64 (dApp a)) (dApp a).cell (dApp a).tr =
        (occPrepare e (structures a) a.cell a.tr).map fun r => (r.1.map GCell.doubled, dTr r.2) := by
      unfold occPrepare64 occPrepare
      show (do let g ← OGen.new64 a.cell.doubled (e.symmetry a.cell.doubled) (e.wyckoffs a.cell.doubled)
               let tr ← parseTr (a.tr.map fun t : String × ℚ => (t.1, fl64 t.2))
               let cs ← structures64 (dApp a) g
               return (cs, tr)) = _
      rw [ogen_doubled ht.positions hs, parseTr_doubled]
      cases hg : OGen.new a.cell (e.symmetry a.cell) (e.wyckoffs a.cell) with
      | error er => rfl
      | ok g =>
        simp only [bind, Except.bind, Except.map]
        cases parseTr a.tr with
        | error er => rfl
        | ok tr =>
          have hgi : g.init = a.cell := by
            obtain ⟨ps, -, hg⟩ := bind_ok hg
            rw [← Except.ok.inj hg]
          simp only [h1 g hgi]
          cases structures a g <;> rfl
    rw [hprep]
    cases hp : occPrepare e (structures a) a.cell a.tr with
    | error er => rfl
    | ok r =>
      refine loop_doubled hq a.mpr a.outmode _ (fun d hd' => ?_) 1 fs1
      obtain ⟨g, hg, hp⟩ := bind_ok hp
      obtain ⟨tr, htr, hp⟩ := bind_ok hp
      obtain ⟨cs, hcs, hp⟩ := bind_ok hp
      obtain rfl := Except.ok.inj hp
      have hgi : g.init = a.cell := by
        obtain ⟨ps, -, hg⟩ := bind_ok hg
        rw [← Except.ok.inj hg]
      obtain ⟨k1, k2, k3⟩ := h2 g hgi cs hcs d hd'
      refine ⟨k3, k1 ▸ ht.lattice, k2 ▸ ht.positions, hs.primitive d k1 k2, fun hrt => hr hrt d k1 k2, ?_⟩
      intro t htt
      cases hat : a.tr with
      | none =>
        rw [hat] at htr
        obtain rfl := Except.ok.inj htr
        cases htt
      | some u =>
        rw [hat] at htr
        obtain ⟨sp, -, htr⟩ := bind_ok htr
        obtain rfl := Except.ok.inj htr
        obtain rfl := Option.some.inj htt
        have := hd u hat
        exact ⟨this.bound, k1 ▸ k2 ▸ this.margin⟩

/-- **C130, ocubiter.** -/
theorem C130_ocubiter (e : Ext) (sq : ℚ → ℚ) (hq : ∀ x, 0 ≤ x → 0 ≤ sq x ∧ |sq x ^ 2 - x| ≤ (x + 1) / 10 ^ 14) (factor : ℚ → M3 ℚ → ℚ)
    (infile : List Char) (content : FileContent) (hin : TameContent content) (o : OccOpts)
    (hspg : ∀ c, readFile e.root content infile none = .ok c → SpgAgrees e c ∧ (o.refined = true → RefineAgrees e c) ∧
      ∀ t ∈ o.trs.head?, ClearDistances c t.2) (fs : Fs) :
    ocubiter64 e sq factor infile content.doubled o.doubled fs.doubled =
      ((ocubiter e infile content o fs).1.doubled, (ocubiter e infile content o fs).2) := by
  unfold ocubiter64 ocubiter
  obtain ⟨h1, h2⟩ := init_doubled e factor (fun s => ((s / 2 + 1 : ℕ) : ℤ)) infile hin o
  rw [h1]
  cases ha : occInit e (fun s => ((s / 2 + 1 : ℕ) : ℤ)) infile content o with
  | error er => rfl
  | ok a =>
    obtain ⟨hb, ht, hread, htr, href⟩ := h2 a ha
    obtain ⟨s1, s2, s3⟩ := hspg a.cell hread
    refine run_doubled hq ht s1 (href ▸ s2) (htr ▸ s3) ?_ ?_ fs
    · intro g hg
      show (if a.n < 0 then .error .valueError else OGen.genNodupOfEle64 e.hash { g with init := g.init.doubled } a.ele a.n.toNat a.speckle) = _
      unfold biterStructures
      split
      · rfl
      · exact genNodupOfEle_doubled e.hash (hg ▸ ht.positions) _ _ _
    · intro g hg cs hcs
      unfold biterStructures at hcs
      split at hcs
      · cases hcs
      · exact hg ▸ genNodup_base (hg ▸ hb) hcs

/-- **C130, ocumaker.** -/
theorem C130_ocumaker (e : Ext) (sq : ℚ → ℚ) (hq : ∀ x, 0 ≤ x → 0 ≤ sq x ∧ |sq x ^ 2 - x| ≤ (x + 1) / 10 ^ 14) (factor : ℚ → M3 ℚ → ℚ)
    (infile : List Char) (content : FileContent) (hin : TameContent content) (o : OccOpts)
    (hspg : ∀ c, readFile e.root content infile none = .ok c → SpgAgrees e c ∧ (o.refined = true → RefineAgrees e c) ∧
      ∀ t ∈ o.trs.head?, ClearDistances c t.2) (fs : Fs) :
    ocumaker64 e sq factor infile content.doubled o.doubled fs.doubled =
      ((ocumaker e infile content o fs).1.doubled, (ocumaker e infile content o fs).2) := by
  unfold ocumaker64 ocumaker
  obtain ⟨h1, h2⟩ := init_doubled e factor (fun s => (s : ℤ) - 1) infile hin { o with mpr := true }
  rw [show ({ o.doubled with mpr := true } : OccOpts) = ({ o with mpr := true } : OccOpts).doubled from rfl, h1]
  cases ha : occInit e (fun s => (s : ℤ) - 1) infile content { o with mpr := true } with
  | error er => rfl
  | ok a =>
    obtain ⟨hb, ht, hread, htr, href⟩ := h2 a ha
    obtain ⟨s1, s2, s3⟩ := hspg a.cell hread
    refine run_doubled hq ht s1 (href ▸ s2) (htr ▸ s3) ?_ ?_ fs
    · intro g hg
      unfold makerStructures64 makerStructures
      show (do let ls ← OGen.allSpeckleOfEle64 e.hash { g with init := g.init.doubled } a.n.toNat a.ele a.speckle; return ls.flatten) = _
      rw [(allSpeckle_doubled e.hash (hg ▸ hb) (hg ▸ ht.positions) _ _ _).1]
      cases g.allSpeckleOfEle e.hash a.n.toNat a.ele a.speckle with
      | error er => rfl
      | ok ls => simp only [bind, Except.bind, Except.map, pure, Except.pure, List.map_flatten]
    · intro g hg cs hcs
      obtain ⟨ls, hls, hcs⟩ := bind_ok hcs
      obtain rfl := Except.ok.inj hcs
      exact hg ▸ (allSpeckle_doubled e.hash (hg ▸ hb) (hg ▸ ht.positions) _ _ _).2 ls hls

/-- **C130, files.** What the replacement by doubles leaves alone: the directories, the names of the files, and the POSCAR texts. -/
theorem C130_files (fs : Fs) : fs.doubled.dirs = fs.dirs ∧ fs.doubled.files.map (·.1) = fs.files.map (·.1) ∧
    ∀ p s, (p, FileContent.text s) ∈ fs.doubled.files ↔ (p, FileContent.text s) ∈ fs.files := by
  refine ⟨rfl, ?_, fun p s => ?_⟩
  · unfold Fs.doubled
    rw [List.map_map]
    rfl
  · unfold Fs.doubled
    simp only [List.mem_map]
    constructor
    · rintro ⟨⟨q, x⟩, hx, he⟩
      cases x with
      | text t =>
        simp only [FileContent.doubled, Prod.mk.injEq, FileContent.text.injEq] at he
        obtain ⟨rfl, rfl⟩ := he
        exact hx
      | doc d => simp [FileContent.doubled] at he
    · intro h
      exact ⟨_, h, rfl⟩

/-! ## the hypotheses are met -/

theorem clear_four {t : ℚ} {n : ℤ} (h : t = n / 10 ^ 4) (hn : n % 10 ≠ 5) : Clear (1 / 10 ^ 5) t := by
  intro k
  have e : 1000 * t - (k + 1 / 2) = ((n - 10 * k - 5 : ℤ) : ℚ) / 10 := by rw [h]; push_cast; ring
  rw [e, abs_div, ← Int.cast_abs, abs_of_pos (by norm_num : (0 : ℚ) < 10)]
  have : (1 : ℤ) ≤ |n - 10 * k - 5| := Int.one_le_abs (by omega)
  have : (1 : ℚ) ≤ (|n - 10 * k - 5| : ℤ) := by exact_mod_cast this
  linarith

theorem read_four {t : ℚ} {m : ℤ} (h : t = m / 10 ^ 4) (n : ℤ) : 1 / 10 ^ 3 < |t * 10 ^ 4 - (n + 1 / 2)| := by
  have e : t * 10 ^ 4 - (n + 1 / 2) = ((2 * (m - n) - 1 : ℤ) : ℚ) / 2 := by rw [h]; push_cast; ring
  rw [e, abs_div, ← Int.cast_abs, abs_of_pos (by norm_num : (0 : ℚ) < 2)]
  have : (1 : ℤ) ≤ |2 * (m - n) - 1| := Int.one_le_abs (by omega)
  have : (1 : ℚ) ≤ (|2 * (m - n) - 1| : ℤ) := by exact_mod_cast this
  linarith

/-- for the spglib of the examples, which finds the identity only and returns what it is given, every tame cell will do -/
theorem exExt_agrees (choices : ℕ → List Char) {c : GCell} (h : Tame c) : SpgAgrees (exExt choices) c ∧ RefineAgrees (exExt choices) c := by
  refine ⟨⟨?_, ?_, ?_, ?_, rfl, ?_⟩, ?_⟩
  · exact .cons ⟨rfl, 0, by norm_num [exExt, Within]⟩ .nil
  · intro g hg r hr
    obtain rfl := List.mem_singleton.1 hg
    simp only [List.mem_cons, List.not_mem_nil, or_false] at hr
    rcases hr with rfl | rfl | rfl <;> decide
  · intro g hg
    obtain rfl := List.mem_singleton.1 hg
    norm_num [All3]
  · intro g hg x hx
    obtain rfl := List.mem_singleton.1 hg
    have e : Op.image (((1, 0, 0), (0, 1, 0), (0, 0, 1)), (0, 0, 0)) x = x := by simp [Op.image]
    rw [e]
    obtain ⟨h1, h2, h3⟩ := h.positions x hx
    exact ⟨h1.2.2, h2.2.2, h3.2.2⟩
  · intro d _ _
    rfl
  · intro d hl hp
    have hs := tame_steady (c := d) (hl ▸ h.lattice) (hp ▸ h.positions)
    refine .some ⟨hs.lattice, hs.positions, rfl, ?_⟩
    intro x hx
    rw [show (d.lattice, d.positions, d.numbers).2.1 = d.positions from rfl, hp] at hx
    obtain ⟨h1, h2, h3⟩ := h.positions x hx
    have k : (1 : ℚ) / 10 ^ 6 ≤ 1 / 10 ^ 5 := by norm_num
    exact ⟨h1.2.2.mono k, h2.2.2.mono k, h3.2.2.mono k⟩

/-- an input file -/
def ex130Doc : YDoc :=
  ⟨none, some ((40531 / 10 ^ 4, 0, 0), (0, 40531 / 10 ^ 4, 0), (0, 0, 40531 / 10 ^ 4)),
    some [(0, 0, 0), (3333 / 10 ^ 4, 6667 / 10 ^ 4, 1 / 2), (1 / 2, 1 / 2, 0)], some [29, 29, 79], some 1⟩

/-- the options: one of the copper atoms is removed, copper atoms must be farther apart than 2.4 Å, the structures are refined -/
def ex130Opts : OccOpts := ⟨none, some "Cu", none, some 1, [("Cu", 12 / 5)], true, "yaml".toList, true⟩

theorem ex130_tame : TameContent (.doc ex130Doc) := by
  refine ⟨fun z hz => (Option.some.inj hz).symm, fun l ps hl hps => ?_⟩
  obtain rfl := Option.some.inj hl
  obtain rfl := Option.some.inj hps
  have z : (0 : ℚ) = ((0 : ℤ) : ℚ) / 10 ^ 4 := by norm_num
  have a : (40531 / 10 ^ 4 : ℚ) = ((40531 : ℤ) : ℚ) / 10 ^ 4 := by norm_num
  have b : (3333 / 10 ^ 4 : ℚ) = ((3333 : ℤ) : ℚ) / 10 ^ 4 := by norm_num
  have c : (6667 / 10 ^ 4 : ℚ) = ((6667 : ℤ) : ℚ) / 10 ^ 4 := by norm_num
  have d : (1 / 2 : ℚ) = ((5000 : ℤ) : ℚ) / 10 ^ 4 := by norm_num
  have around_self : ∀ {t : ℚ} {n : ℤ}, t = n / 10 ^ 4 → around 4 t = t := by
    intro t n h
    unfold around
    rw [show t * 10 ^ 4 = (n : ℚ) by rw [h]; ring, rint_intCast, h]
  have pos : ∀ {t : ℚ} {n : ℤ}, t = n / 10 ^ 4 → |t| ≤ 1 → n % 10 ≠ 5 → |t| ≤ 2 ∧ |around 4 t| ≤ 1 ∧
      (∀ n : ℤ, 1 / 10 ^ 3 < |t * 10 ^ 4 - (n + 1 / 2)|) ∧ Clear (1 / 10 ^ 5) (around 4 t) := by
    intro t n h h1 hn
    rw [around_self h]
    exact ⟨h1.trans (by norm_num), h1, read_four h, clear_four h hn⟩
  have p0 := pos z (by norm_num) (by norm_num)
  have pb := pos b (by norm_num [abs_of_pos]) (by norm_num)
  have pc := pos c (by norm_num [abs_of_pos]) (by norm_num)
  have pd := pos d (by norm_num [abs_of_pos]) (by norm_num)
  have l0 : |(0 : ℚ)| ≤ 99 ∧ ∀ n : ℤ, 1 / 10 ^ 3 < |(0 : ℚ) * 10 ^ 4 - (n + 1 / 2)| := ⟨by norm_num, read_four z⟩
  have la : |(40531 / 10 ^ 4 : ℚ)| ≤ 99 ∧ ∀ n : ℤ, 1 / 10 ^ 3 < |(40531 / 10 ^ 4 : ℚ) * 10 ^ 4 - (n + 1 / 2)| :=
    ⟨by norm_num [abs_of_pos], read_four a⟩
  refine ⟨⟨⟨la, l0, l0⟩, ⟨l0, la, l0⟩, l0, l0, la⟩, ?_⟩
  intro x hx
  simp only [List.mem_cons, List.not_mem_nil, or_false] at hx
  rcases hx with rfl | rfl | rfl
  · exact ⟨p0, p0, p0⟩
  · exact ⟨pb, pc, pd⟩
  · exact ⟨pd, pd, p0⟩

/-- the 27 neighbouring cells -/
def nearList : List (V3 ℤ) := [-1, 0, 1].flatMap fun a => [-1, 0, 1].flatMap fun b => [-1, 0, 1].map fun c => (a, b, c)

theorem mem_nearList {t : V3 ℤ} (h : Near t) : t ∈ nearList := by
  obtain ⟨a, b, c⟩ := t
  obtain ⟨⟨a1, a2⟩, ⟨b1, b2⟩, c1, c2⟩ := h
  simp only at *
  have k : ∀ x : ℤ, -1 ≤ x → x ≤ 1 → x ∈ [-1, 0, 1] := by intro x h1 h2; simp; omega
  simp only [nearList, List.mem_flatMap, List.mem_map]
  exact ⟨a, k a a1 a2, b, k b b1 b2, c, k c c1 c2, rfl⟩

theorem ex130_distances : ∀ c ∈ (yamlReadCell ex130Doc).toOption, ∀ p ∈ c.positions, ∀ q ∈ c.positions, ∀ t ∈ nearList,
    1 / 10 ^ 4 < |distSq (cartesian c.lattice p) (cartesian c.lattice (shift q t)) - (12 / 5) ^ 2| := by decide +kernel

/-- the run with doubles on this input ends normally and leaves the two files of the run with exact numbers, with the nearest doubles -/
example (sq : ℚ → ℚ) (hq : ∀ x, 0 ≤ x → 0 ≤ sq x ∧ |sq x ^ 2 - x| ≤ (x + 1) / 10 ^ 14) (factor : ℚ → M3 ℚ → ℚ) :
    let e := exExt fun k => natStr (1000 + k)
    let r := ocubiter e "a.yaml".toList (.doc ex130Doc) ex130Opts ⟨[], []⟩
    r.2 = .ok () ∧ r.1.files.length = 2 ∧
      ocubiter64 e sq factor "a.yaml".toList (.doc ex130Doc.doubled) ex130Opts.doubled ⟨[], []⟩ = (r.1.doubled, .ok ()) := by
  intro e r
  have h1 : r.2 = .ok () := by decide +kernel
  have h2 : r.1.files.length = 2 := by decide +kernel
  refine ⟨h1, h2, ?_⟩
  have hd : dispatch "a.yaml".toList none = .ok .yaml := by decide +kernel
  have := C130_ocubiter e sq hq factor "a.yaml".toList (.doc ex130Doc) ex130_tame ex130Opts (fun c hc => by
    obtain ⟨-, ht⟩ := (read_doubled e.root factor ex130_tame "a.yaml".toList none).2 c hc
    obtain ⟨s1, s2⟩ := exExt_agrees (fun k => natStr (1000 + k)) ht
    refine ⟨s1, fun _ => s2, fun t htt => ?_⟩
    obtain rfl := Option.some.inj htt
    refine ⟨by norm_num [abs_of_pos], fun p q t hp hq' hn => ?_⟩
    refine ex130_distances c ?_ p hp q hq' t (mem_nearList hn)
    unfold readFile at hc
    rw [hd] at hc
    have hc' : yamlReadCell ex130Doc = .ok c := hc
    rw [hc']
    rfl) ⟨[], []⟩
  rw [← h1]
  exact this

end Verif
