import Verif.Model.Scaffold
import Verif.Spec.Grid
import Mathlib.Data.List.Flatten
import Mathlib.Data.List.Nodup
import Mathlib.Tactic.Ring

/-! # Uniform nested lists: `reshape`, flattening and index arithmetic -/

namespace Verif

variable {α β : Type}

theorem chunks_length (n k : ℕ) (l : List α) : (chunks n k l).length = k := by
  induction k generalizing l with
  | zero => rfl
  | succ k ih => simp [chunks, ih]

theorem chunks_flatten (n k : ℕ) (l : List α) (h : l.length = k * n) : (chunks n k l).flatten = l := by
  induction k generalizing l with
  | zero => simp at h; subst h; rfl
  | succ k ih =>
    unfold chunks
    rw [List.flatten_cons, ih _ (by rw [List.length_drop, h, Nat.succ_mul]; omega), List.take_append_drop]

theorem chunks_uniform (n k : ℕ) (l : List α) (h : l.length = k * n) : ∀ c ∈ chunks n k l, c.length = n := by
  induction k generalizing l with
  | zero => simp [chunks]
  | succ k ih =>
    unfold chunks
    rw [Nat.succ_mul] at h
    intro c hc
    rcases List.mem_cons.1 hc with rfl | hc
    · rw [List.length_take]; omega
    · exact ih _ (by rw [List.length_drop]; omega) c hc

theorem chunks_of_flatten (n : ℕ) (ls : List (List α)) (h : ∀ c ∈ ls, c.length = n) : chunks n ls.length ls.flatten = ls := by
  induction ls with
  | nil => rfl
  | cons a ls ih =>
    have ha := h a (by simp)
    rw [List.length_cons, List.flatten_cons]
    unfold chunks
    rw [List.take_left' ha, List.drop_left' ha, ih (fun c hc => h c (List.mem_cons_of_mem _ hc))]

theorem uniform_length (n : ℕ) (ls : List (List α)) (h : ∀ c ∈ ls, c.length = n) : ls.flatten.length = ls.length * n := by
  induction ls with
  | nil => simp
  | cons a ls ih =>
    rw [List.flatten_cons, List.length_append, h a (by simp), ih (fun c hc => h c (List.mem_cons_of_mem _ hc)), List.length_cons]
    ring

theorem uniform_getElem? (n : ℕ) (ls : List (List α)) (h : ∀ c ∈ ls, c.length = n) (i j : ℕ) (hj : j < n) :
    ls.flatten[i * n + j]? = (ls[i]?).bind fun c => c[j]? := by
  induction ls generalizing i with
  | nil => simp
  | cons a ls ih =>
    have ha := h a (by simp)
    rw [List.flatten_cons]
    cases i with
    | zero => rw [Nat.zero_mul, Nat.zero_add, List.getElem?_append_left (by omega)]; rfl
    | succ i =>
      rw [List.getElem?_append_right (by rw [ha, Nat.succ_mul]; omega), List.getElem?_cons_succ,
        show (i + 1) * n + j - a.length = i * n + j by rw [ha, Nat.succ_mul]; omega]
      exact ih (fun c hc => h c (List.mem_cons_of_mem _ hc)) i

theorem box_planes {d w l : ℕ} {c : Cube α} (h : Spec.Box d w l c) : (∀ p ∈ c, p.length = w) ∧ (∀ r ∈ c.flatten, r.length = l) :=
  ⟨fun p hp => (h.2 p hp).1, fun r hr => by
    obtain ⟨p, hp, hr⟩ := List.mem_flatten.1 hr
    exact (h.2 p hp).2 r hr⟩

theorem box_length {d w l : ℕ} {c : Cube α} (h : Spec.Box d w l c) : c.flatten.flatten.length = d * w * l := by
  rw [uniform_length l _ (box_planes h).2, uniform_length w _ (box_planes h).1, h.1]

/-- index arithmetic of C order -/
theorem box_getElem? {d w l : ℕ} {c : Cube α} (h : Spec.Box d w l c) (i j k : ℕ) (hj : j < w) (hk : k < l) :
    c.flatten.flatten[(i * w + j) * l + k]? = Spec.entry c i j k := by
  rw [uniform_getElem? l _ (box_planes h).2 _ k hk, uniform_getElem? w _ (box_planes h).1 i j hj]
  rfl

theorem reshape3_box (d w l : ℕ) (out : List α) (h : out.length = d * w * l) : Spec.Box d w l (reshape3 d w l out) := by
  have h' : out.length = d * (w * l) := by rw [h]; ring
  refine ⟨by rw [reshape3, List.length_map, chunks_length], ?_⟩
  intro plane hp
  obtain ⟨c, hc, rfl⟩ := List.mem_map.1 hp
  have := chunks_uniform _ _ _ h' c hc
  exact ⟨chunks_length _ _ _, chunks_uniform _ _ _ this⟩

theorem reshape3_flatten (d w l : ℕ) (out : List α) (h : out.length = d * w * l) : (reshape3 d w l out).flatten.flatten = out := by
  have h' : out.length = d * (w * l) := by rw [h]; ring
  rw [List.flatten_flatten]
  unfold reshape3
  rw [List.map_map, List.map_congr_left (g := id), List.map_id, chunks_flatten _ _ _ h']
  intro c hc
  exact chunks_flatten _ _ _ (chunks_uniform _ _ _ h' c hc)

theorem reshape3_of_box {d w l : ℕ} {c : Cube α} (h : Spec.Box d w l c) : reshape3 d w l c.flatten.flatten = c := by
  unfold reshape3
  have h1 : c.flatten.flatten = (c.map List.flatten).flatten := List.flatten_flatten
  have h2 : ∀ x ∈ c.map List.flatten, x.length = w * l := by
    intro x hx
    obtain ⟨p, hp, rfl⟩ := List.mem_map.1 hx
    rw [uniform_length l p (h.2 p hp).2, (h.2 p hp).1]
  have h3 := chunks_of_flatten (w * l) (c.map List.flatten) h2
  rw [List.length_map, h.1] at h3
  rw [h1, h3, List.map_map, List.map_congr_left (g := id), List.map_id]
  intro p hp
  have := chunks_of_flatten l p (h.2 p hp).2
  rw [(h.2 p hp).1] at this
  exact this

theorem box_inj {d w l : ℕ} {c c' : Cube α} (h : Spec.Box d w l c) (h' : Spec.Box d w l c') (he : c.flatten.flatten = c'.flatten.flatten) :
    c = c' := by rw [← reshape3_of_box h, ← reshape3_of_box h', he]

theorem cubeMap_flatten (f : α → β) (c : Cube α) : (cubeMap f c).flatten.flatten = c.flatten.flatten.map f := by
  unfold cubeMap
  rw [List.map_flatten, List.map_flatten]

theorem cubeMap_box {d w l : ℕ} {c : Cube α} (f : α → β) (h : Spec.Box d w l c) : Spec.Box d w l (cubeMap f c) := by
  refine ⟨by rw [cubeMap, List.length_map, h.1], ?_⟩
  intro p hp
  obtain ⟨q, hq, rfl⟩ := List.mem_map.1 hp
  refine ⟨by rw [List.length_map, (h.2 q hq).1], ?_⟩
  intro r hr
  obtain ⟨s, hs, rfl⟩ := List.mem_map.1 hr
  rw [List.length_map, (h.2 q hq).2 s hs]

theorem cubeMap_entry (f : α → β) (c : Cube α) (i j k : ℕ) : Spec.entry (cubeMap f c) i j k = (Spec.entry c i j k).map f := by
  unfold Spec.entry cubeMap
  rw [List.getElem?_map]
  cases c[i]? with
  | none => rfl
  | some p =>
    simp only [Option.map_some, Option.bind_some, List.getElem?_map]
    cases p[j]? with
    | none => rfl
    | some r => simp only [Option.map_some, Option.bind_some, List.getElem?_map]

theorem cubeMap_cubeMap {γ : Type} (g : β → γ) (f : α → β) (c : Cube α) : cubeMap g (cubeMap f c) = cubeMap (fun x => g (f x)) c := by
  simp [cubeMap, List.map_map, Function.comp_def]

theorem cubeMap_id (f : α → α) (c : Cube α) (h : ∀ x ∈ c.flatten.flatten, f x = x) : cubeMap f c = c := by
  unfold cubeMap
  conv_rhs => rw [← List.map_id c]
  refine List.map_congr_left fun p hp => ?_
  conv_rhs => rw [id, ← List.map_id p]
  refine List.map_congr_left fun r hr => ?_
  conv_rhs => rw [id, ← List.map_id r]
  refine List.map_congr_left fun x hx => ?_
  exact h x (List.mem_flatten.2 ⟨r, List.mem_flatten.2 ⟨p, hp, hr⟩, hx⟩)

end Verif
