import Verif.Lemmas.Levels

/-! # Deduplication of bare decorations (atomic-number arrays) -/

namespace Verif

/-- keys put into the table after emitting a decoration -/
def isoNum {K : Type _} (hash : List ℤ → K) (P : List (List ℕ)) (m : List ℤ) : List K := P.map (fun p => hash (gather m p))

/-- for every hash: no emitted decoration is an image of another one -/
theorem dedupNum_pairwise {K : Type _} [DecidableEq K] (hash : List ℤ → K) {n : ℕ} {P : List (List ℕ)} (hG : PermGroup n P) (dup : List (List ℤ))
    (hn : ∀ m ∈ dup, m.length = n) :
    (dedupL hash (isoNum hash P) [] dup).Pairwise (fun a b => ¬ Rel P a b ∧ ¬ Rel P b a) := by
  have hsub := dedupL_sublist hash (isoNum hash P) [] dup
  refine (dedupL_pairwise hash (isoNum hash P) [] dup).imp_of_mem ?_
  intro a b ha hb hk
  have h : ¬ Rel P a b := by
    rintro ⟨p, hp, rfl⟩
    exact hk (List.mem_map.2 ⟨p, hp, rfl⟩)
  exact ⟨h, fun h' => h (h'.symm hG (hn b (hsub.subset hb)))⟩

/-- without collisions: a system of representatives of the classes in the input -/
theorem dedupNum_transversal {K : Type _} [DecidableEq K] (hash : List ℤ → K) {n : ℕ} {P : List (List ℕ)} (hG : PermGroup n P) (dup : List (List ℤ))
    (hn : ∀ m ∈ dup, m.length = n) (hinj : Set.InjOn hash {m | ∃ d ∈ dup, Rel P d m}) :
    Spec.Transversal (Rel P) {m | m ∈ dup} (dedupL hash (isoNum hash P) [] dup) := by
  have hsub := dedupL_sublist hash (isoNum hash P) [] dup
  refine ⟨fun m hm => hsub.subset hm, ?_, dedupNum_pairwise hash hG dup hn⟩
  intro d hd
  obtain ⟨pre, post, hdup⟩ := List.append_of_mem (show d ∈ dup from hd)
  have hself : gather d (List.range n) = d := by rw [← hn d hd]; exact gather_range d
  obtain ⟨r, h1, _, h3⟩ := dedupL_cover hash (isoNum hash P) (seen := []) (pre := pre) (post := post) (a := d)
    (List.mem_map.2 ⟨_, hG.one, by rw [hself]⟩) (by simp)
  rw [← hdup] at h1
  obtain ⟨p, hp, he⟩ := List.mem_map.1 h3
  refine ⟨r, h1, p, hp, hinj ⟨r, hsub.subset h1, p, hp, rfl⟩ ⟨d, hd, Rel.refl hG (hn d hd)⟩ he⟩

/-- the exact filter of the candidates keeps the set of decorations when the hash does not collide -/
theorem selfNum_mem {K : Type _} [DecidableEq K] (hash : List ℤ → K) (l : List (List ℤ)) (hinj : Set.InjOn hash {m | m ∈ l}) (m : List ℤ) :
    m ∈ dedupL hash (fun m => [hash m]) [] l ↔ m ∈ l := by
  constructor
  · exact fun h => (dedupL_sublist _ _ _ _).subset h
  · intro h
    obtain ⟨pre, post, hl⟩ := List.append_of_mem h
    obtain ⟨r, h1, _, h3⟩ := dedupL_cover hash (fun m => [hash m]) (seen := []) (pre := pre) (post := post) (a := m)
      (by simp) (by simp)
    rw [← hl] at h1
    have hr := (dedupL_sublist _ _ _ _).subset h1
    rw [List.mem_singleton] at h3
    rw [hinj h hr h3]
    exact h1

theorem selfNum_nodup {K : Type _} [DecidableEq K] (hash : List ℤ → K) (l : List (List ℤ)) : (dedupL hash (fun m => [hash m]) [] l).Nodup := by
  refine (dedupL_pairwise hash (fun m => [hash m]) [] l).imp ?_
  rintro a b h rfl
  exact h (by simp)

/-- one level of "add one site": a system of representatives of level `k` gives one of level `k + 1` -/
theorem stepNum_transversal {hash : List ℤ → ℕ} {P : List (List ℕ)} {ok : ℕ → ℤ → Bool} {z : ℤ} {base : List ℤ}
    (hok : ∀ i v, ok i v = true → v ≠ z) {n : ℕ} (hG : PermGroup n P)
    (hinv : ∀ p ∈ P, ∀ i j : ℕ, p[i]? = some j → ∀ v, ok i v = true → ok j v = true)
    (hb : base.length = n) {k : ℕ} {gen : List (List ℤ)}
    (hinj : Set.InjOn hash {m | ∃ d ∈ SubstSet base ok z (k + 1), Rel P d m})
    (ht : Spec.Transversal (Rel P) (SubstSet base ok z k) gen) :
    Spec.Transversal (Rel P) (SubstSet base ok z (k + 1))
      (dedupL hash (isoNum hash P) [] (dedupL hash (fun m => [hash m]) [] (gen.flatMap (addOneCands ok z)))) := by
  have hlenD : ∀ k, ∀ d ∈ SubstSet base ok z k, d.length = n := by
    rintro k d ⟨S, _, _, hs⟩; rw [hs.1, hb]
  have hcand : ∀ m ∈ gen.flatMap (addOneCands ok z), m ∈ SubstSet base ok z (k + 1) := by
    intro m hm
    obtain ⟨r, hr, hm⟩ := List.mem_flatMap.1 hm
    obtain ⟨i, v, hv, ho, rfl⟩ := (mem_addOneCands _ _ _ _).1 hm
    exact substSet_step hok (ht.1 r hr) hv ho
  have hmem := selfNum_mem hash (gen.flatMap (addOneCands ok z))
    (hinj.mono (by intro m hm; exact ⟨m, hcand m hm, Rel.refl hG (hlenD _ m (hcand m hm))⟩))
  have hT := dedupNum_transversal hash hG (dedupL hash (fun m => [hash m]) [] (gen.flatMap (addOneCands ok z)))
    (fun m hm => hlenD _ m (hcand m ((hmem m).1 hm)))
    (hinj.mono (by rintro m ⟨d, hd, hdm⟩; exact ⟨d, hcand d ((hmem d).1 hd), hdm⟩))
  refine ⟨fun m hm => hcand m ((hmem m).1 (hT.1 m hm)), ?_, hT.2.2⟩
  intro d hd
  obtain ⟨d', hd', i, v, hv, ho, rfl⟩ := substSet_pred hd
  obtain ⟨r, hr, p, hp, hrp⟩ := ht.2.1 d' hd'
  have hrlen : r.length = n := hlenD _ r (ht.1 r hr)
  have hpp := hG.perm p hp
  have hi : i < p.length := by
    rw [hpp.length, ← hlenD _ d' hd']; exact (List.getElem?_eq_some_iff.1 hv).1
  have hpi := List.getElem?_eq_getElem hi
  have hlt : ∀ k ∈ p, k < r.length := by rw [hrlen]; exact hpp.lt
  have hrj : r[p[i]]? = some v := by
    rw [← hrp, gather_getElem? hlt, hpi] at hv
    exact hv
  have hc : r.set p[i] z ∈ gen.flatMap (addOneCands ok z) :=
    List.mem_flatMap.2 ⟨r, hr, (mem_addOneCands _ _ _ _).2 ⟨p[i], v, hrj, hinv p hp i _ hpi v ho, rfl⟩⟩
  have hrel : Rel P (r.set p[i] z) (d'.set i z) := ⟨p, hp, by rw [gather_set hpp hrlen hpi, hrp]⟩
  obtain ⟨s, hs, hsr⟩ := hT.2.1 _ ((hmem _).2 hc)
  exact ⟨s, hs, hsr.trans hG (hlenD _ s (hcand s ((hmem s).1 (hT.1 s hs)))) hrel⟩

/-- two systems of representatives of the same set have the same size -/
theorem transversal_length_le {R : List ℤ → List ℤ → Prop} {D : Set (List ℤ)} {o₁ o₂ : List (List ℤ)}
    (hsymm : ∀ a ∈ D, ∀ b ∈ D, R a b → R b a) (htrans : ∀ a ∈ D, ∀ b ∈ D, ∀ c ∈ D, R a b → R b c → R a c)
    (h₁ : Spec.Transversal R D o₁) (h₂ : Spec.Transversal R D o₂) : o₁.length ≤ o₂.length := by
  choose! f hf using h₂.2.1
  have hnd : (o₁.map f).Nodup := by
    rw [List.Nodup, List.pairwise_map]
    refine h₁.2.2.imp_of_mem ?_
    intro a b ha hb hab he
    obtain ⟨ha', hb'⟩ := And.intro (h₁.1 a ha) (h₁.1 b hb)
    have h1 := hf a ha'
    have h2 := hf b hb'
    rw [he] at h1
    exact hab.1 (htrans a ha' (f b) (h₂.1 _ h2.1) b hb' (hsymm _ (h₂.1 _ h2.1) _ ha' h1.2) h2.2)
  have hsub : (o₁.map f) ⊆ o₂ := by
    intro x hx
    obtain ⟨a, ha, rfl⟩ := List.mem_map.1 hx
    exact (hf a (h₁.1 a ha)).1
  have := (hnd.subperm hsub).length_le
  rwa [List.length_map] at this

theorem transversal_length {R : List ℤ → List ℤ → Prop} {D : Set (List ℤ)} {o₁ o₂ : List (List ℤ)}
    (hsymm : ∀ a ∈ D, ∀ b ∈ D, R a b → R b a) (htrans : ∀ a ∈ D, ∀ b ∈ D, ∀ c ∈ D, R a b → R b c → R a c)
    (h₁ : Spec.Transversal R D o₁) (h₂ : Spec.Transversal R D o₂) : o₁.length = o₂.length :=
  Nat.le_antisymm (transversal_length_le hsymm htrans h₁ h₂) (transversal_length_le hsymm htrans h₂ h₁)

end Verif
