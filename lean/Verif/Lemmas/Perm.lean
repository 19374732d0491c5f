import Verif.Lemmas.Cell
import Mathlib.Data.List.FinRange

/-! # Index lists acting on decorations -/

namespace Verif

/-- total version of fancy indexing -/
def gather {α} (xs : List α) (p : List ℕ) : List α := p.filterMap (fun i => xs[i]?)

theorem fancy_gather {α} {xs : List α} {p : List ℕ} (h : ∀ i ∈ p, i < xs.length) : fancy xs p = .ok (gather xs p) := by
  obtain ⟨ys, hys⟩ := (fancy_isOk_iff xs p).2 h
  rw [hys]
  have h1 := (fancy_ok_iff _ _ _).1 hys
  unfold gather
  have : p.filterMap (fun i => xs[i]?) = (p.map (fun i => xs[i]?)).filterMap id := by
    rw [List.filterMap_map]; rfl
  rw [this, h1, List.filterMap_map]
  simp

theorem gather_of_fancy {α} {xs : List α} {p : List ℕ} {ys : List α} (h : fancy xs p = .ok ys) : gather xs p = ys := by
  have := fancy_gather ((fancy_isOk_iff xs p).1 ⟨ys, h⟩)
  rw [h] at this; injection this with this; exact this.symm

/-- `p` rearranges `0..n-1` -/
abbrev IsPerm (n : ℕ) (p : List ℕ) : Prop := p.Perm (List.range n)

theorem IsPerm.lt {n p} (h : IsPerm n p) : ∀ i ∈ p, i < n := fun _ hi => List.mem_range.1 (h.subset hi)

theorem IsPerm.mem {n p} (h : IsPerm n p) {i : ℕ} (hi : i < n) : i ∈ p := h.symm.subset (List.mem_range.2 hi)

theorem IsPerm.length {n p} (h : IsPerm n p) : p.length = n := by simpa using h.length_eq

theorem IsPerm.nodup {n p} (h : IsPerm n p) : p.Nodup := h.nodup_iff.2 List.nodup_range

theorem fancy_isPerm {α} {xs : List α} {p : List ℕ} (h : IsPerm xs.length p) : fancy xs p = .ok (gather xs p) :=
  fancy_gather h.lt

theorem gather_length {α} {xs : List α} {p : List ℕ} (h : ∀ i ∈ p, i < xs.length) : (gather xs p).length = p.length :=
  fancy_length (fancy_gather h)

theorem gather_getElem? {α} {xs : List α} {p : List ℕ} (h : ∀ i ∈ p, i < xs.length) (k : ℕ) :
    (gather xs p)[k]? = (p[k]?).bind (fun i => xs[i]?) := by
  cases hk : p[k]? with
  | none =>
    rw [List.getElem?_eq_none_iff] at hk
    simp only [Option.bind_none]
    rw [List.getElem?_eq_none_iff, gather_length h]; exact hk
  | some i => rw [fancy_getElem? (fancy_gather h) hk]; rfl

theorem gather_perm {α} {xs : List α} {p : List ℕ} (h : IsPerm xs.length p) : (gather xs p).Perm xs :=
  fancy_perm (fancy_isPerm h) h

theorem gather_range {α} (xs : List α) : gather xs (List.range xs.length) = xs :=
  gather_of_fancy (fancy_range xs)

theorem gather_isPerm {n : ℕ} {p q : List ℕ} (hp : IsPerm n p) (hq : IsPerm n q) : IsPerm n (gather p q) := by
  have hl := hp.length
  exact (gather_perm (by rw [hl]; exact hq)).trans hp

theorem gather_gather {α} {xs : List α} {p q : List ℕ} (hp : ∀ i ∈ p, i < xs.length) (hq : ∀ i ∈ q, i < p.length) :
    gather (gather xs p) q = gather xs (gather p q) := by
  apply List.ext_getElem?
  intro k
  have h1 : ∀ i ∈ q, i < (gather xs p).length := by rw [gather_length hp]; exact hq
  have h2 : ∀ i ∈ gather p q, i < xs.length := by
    intro i hi
    rw [gather, List.mem_filterMap] at hi
    obtain ⟨j, _, hj⟩ := hi
    exact hp i (List.mem_of_getElem? hj)
  rw [gather_getElem? h1, gather_getElem? h2, gather_getElem? hq]
  cases q[k]? with
  | none => rfl
  | some j => simp only [Option.bind_some]; rw [gather_getElem? hp]

theorem gather_map {α β} (f : α → β) (xs : List α) (p : List ℕ) : gather (xs.map f) p = (gather xs p).map f := by
  unfold gather
  rw [List.map_filterMap]
  congr 1; funext i
  rw [List.getElem?_map]

/-- A table of permutations that is a group under composition. -/
structure PermGroup (n : ℕ) (P : List (List ℕ)) : Prop where
  perm : ∀ p ∈ P, IsPerm n p
  one : List.range n ∈ P
  mul : ∀ p ∈ P, ∀ q ∈ P, gather p q ∈ P
  inv : ∀ p ∈ P, ∃ q ∈ P, gather p q = List.range n

/-- decoration `b` is a symmetry image of decoration `a` -/
def Rel {α} (P : List (List ℕ)) (a b : List α) : Prop := ∃ p ∈ P, gather a p = b

namespace Rel
variable {α : Type _} {n : ℕ} {P : List (List ℕ)} {a b c : List α}

theorem length_eq (hP : ∀ p ∈ P, IsPerm n p) (ha : a.length = n) (h : Rel P a b) : b.length = n := by
  obtain ⟨p, hp, rfl⟩ := h
  rw [gather_length (by rw [ha]; exact (hP p hp).lt), (hP p hp).length]

theorem refl (hP : PermGroup n P) (ha : a.length = n) : Rel P a a :=
  ⟨_, hP.one, by rw [← ha]; exact gather_range a⟩

theorem trans (hP : PermGroup n P) (ha : a.length = n) (h1 : Rel P a b) (h2 : Rel P b c) : Rel P a c := by
  obtain ⟨p, hp, rfl⟩ := h1
  obtain ⟨q, hq, rfl⟩ := h2
  refine ⟨gather p q, hP.mul p hp q hq, ?_⟩
  rw [gather_gather (by rw [ha]; exact (hP.perm p hp).lt)]
  rw [(hP.perm p hp).length]; exact (hP.perm q hq).lt

theorem symm (hP : PermGroup n P) (ha : a.length = n) (h : Rel P a b) : Rel P b a := by
  obtain ⟨p, hp, rfl⟩ := h
  obtain ⟨q, hq, hpq⟩ := hP.inv p hp
  refine ⟨q, hq, ?_⟩
  rw [gather_gather (by rw [ha]; exact (hP.perm p hp).lt), hpq, ← ha, gather_range]
  rw [(hP.perm p hp).length]; exact (hP.perm q hq).lt

end Rel

end Verif
