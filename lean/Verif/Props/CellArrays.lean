import Verif.Model.CellArrays
import Verif.Props.Scaffold
import Verif.Model.Sogen
import Verif.Props.Cell

/-! # C95: cells and the arrays they share -/

namespace Verif

/-! ## one step -/

theorem append_getElem? {α} {l : List α} {r : ℕ} {x : α} (h : l[r]? = some x) (y : α) : (l ++ [y])[r]? = some x := by
  obtain ⟨hr, rfl⟩ := List.getElem?_eq_some_iff.1 h
  rw [List.getElem?_append_left hr, List.getElem?_eq_getElem hr]

theorem pySet_length {α} {l l' : List α} {i : ℤ} {x : α} (h : pySet l i x = .ok l') : l'.length = l.length := by
  unfold pySet at h
  split at h
  · obtain rfl := Except.ok.inj h
    simp
  · cases h

namespace Arrays

/-- the constructor appends to three of the four lists or does nothing -/
theorem construct_cases (w : Arrays) (l p n : ℕ) :
    (w.construct l p n).1 = w ∨ ∃ L P N g, w.lats[l]? = some L ∧ w.poss[p]? = some P ∧ w.nums[n]? = some N ∧ GCell.new L P N = .ok g ∧
      w.construct l p n = (⟨w.lats, w.poss ++ [g.positions], w.nums ++ [g.numbers],
        w.cells ++ [⟨l, w.poss.length, w.nums.length, w.nums.length, g.numCount⟩]⟩, .ok (some w.cells.length)) := by
  unfold construct
  split
  · rename_i L P N h1 h2 h3
    split
    · exact .inl rfl
    · rename_i g hg
      exact .inr ⟨L, P, N, g, h1, h2, h3, hg, rfl⟩
  · exact .inl rfl

theorem construct_ok {w w' : Arrays} {l p n c : ℕ} (h : w.step (.construct l p n) = (w', .ok (some c))) :
    ∃ L P N g, w.lats[l]? = some L ∧ w.poss[p]? = some P ∧ w.nums[n]? = some N ∧ GCell.new L P N = .ok g ∧ c = w.cells.length ∧
      w' = ⟨w.lats, w.poss ++ [g.positions], w.nums ++ [g.numbers], w.cells ++ [⟨l, w.poss.length, w.nums.length, w.nums.length, g.numCount⟩]⟩ := by
  simp only [step, construct] at h
  split at h
  · rename_i L P N h1 h2 h3
    split at h
    · exact absurd (congrArg Prod.snd h) (by simp)
    · rename_i g hg
      have e1 := congrArg Prod.fst h
      have e2 := congrArg Prod.snd h
      simp only [Except.ok.injEq, Option.some.injEq] at e2
      exact ⟨L, P, N, g, h1, h2, h3, hg, e2.symm, e1.symm⟩
  · exact absurd (congrArg Prod.snd h) (by simp)

theorem step_lat {w : Arrays} {op : ArrOp} {l : ℕ} {m : M3 ℚ} (h : w.lats[l]? = some m) :
    ∃ m', (w.step op).1.lats[l]? = some m' ∧ ((∀ i r, op ≠ .writeLat l i r) → m' = m) := by
  cases op with
  | newLat m' => exact ⟨m, append_getElem? h _, fun _ => rfl⟩
  | construct a b c =>
    rcases construct_cases w a b c with e | ⟨_, _, _, _, _, _, _, _, e⟩
    · exact ⟨m, by simp only [step]; rw [e]; exact h, fun _ => rfl⟩
    · exact ⟨m, by simp only [step]; rw [e]; exact h, fun _ => rfl⟩
  | writeLat a i r =>
    simp only [step]
    split
    · rename_i m' hm'
      by_cases hal : a = l
      · subst hal
        have hlt := (List.getElem?_eq_some_iff.1 h).1
        exact ⟨_, List.getElem?_set_self hlt, fun hne => absurd rfl (hne i r)⟩
      · exact ⟨m, by simpa [List.getElem?_set_ne hal] using h, fun _ => rfl⟩
    · exact ⟨m, h, fun _ => rfl⟩
  | newPos | newNum => exact ⟨m, h, fun _ => rfl⟩
  | assign | writePos | writeNum =>
    simp only [step]
    repeat' split
    all_goals exact ⟨m, h, fun _ => rfl⟩

theorem step_pos {w : Arrays} {op : ArrOp} {p : ℕ} {m : List (V3 ℚ)} (h : w.poss[p]? = some m) :
    ∃ m', (w.step op).1.poss[p]? = some m' ∧ m'.length = m.length ∧ ((∀ i r, op ≠ .writePos p i r) → m' = m) := by
  cases op with
  | newPos m' => exact ⟨m, append_getElem? h _, rfl, fun _ => rfl⟩
  | construct a b c =>
    rcases construct_cases w a b c with e | ⟨_, _, _, _, _, _, _, _, e⟩
    · exact ⟨m, by simp only [step]; rw [e]; exact h, rfl, fun _ => rfl⟩
    · exact ⟨m, by simp only [step]; rw [e]; exact append_getElem? h _, rfl, fun _ => rfl⟩
  | writePos a i r =>
    simp only [step]
    split
    · rename_i m' hm'
      split
      · rename_i ps' hps
        by_cases hal : a = p
        · subst hal
          have hlt := (List.getElem?_eq_some_iff.1 h).1
          obtain rfl := Option.some.inj (h.symm.trans hm')
          exact ⟨_, List.getElem?_set_self hlt, pySet_length hps, fun hne => absurd rfl (hne i r)⟩
        · exact ⟨m, by simpa [List.getElem?_set_ne hal] using h, rfl, fun _ => rfl⟩
      · exact ⟨m, h, rfl, fun _ => rfl⟩
    · exact ⟨m, h, rfl, fun _ => rfl⟩
  | newLat | newNum => exact ⟨m, h, rfl, fun _ => rfl⟩
  | assign | writeLat | writeNum =>
    simp only [step]
    repeat' split
    all_goals exact ⟨m, h, rfl, fun _ => rfl⟩

theorem step_num {w : Arrays} {op : ArrOp} {n : ℕ} {m : List ℤ} (h : w.nums[n]? = some m) :
    ∃ m', (w.step op).1.nums[n]? = some m' ∧ m'.length = m.length ∧ ((∀ i r, op ≠ .writeNum n i r) → m' = m) := by
  cases op with
  | newNum m' => exact ⟨m, append_getElem? h _, rfl, fun _ => rfl⟩
  | construct a b c =>
    rcases construct_cases w a b c with e | ⟨_, _, _, _, _, _, _, _, e⟩
    · exact ⟨m, by simp only [step]; rw [e]; exact h, rfl, fun _ => rfl⟩
    · exact ⟨m, by simp only [step]; rw [e]; exact append_getElem? h _, rfl, fun _ => rfl⟩
  | writeNum a i r =>
    simp only [step]
    split
    · rename_i m' hm'
      split
      · rename_i ps' hps
        by_cases hal : a = n
        · subst hal
          have hlt := (List.getElem?_eq_some_iff.1 h).1
          obtain rfl := Option.some.inj (h.symm.trans hm')
          exact ⟨_, List.getElem?_set_self hlt, pySet_length hps, fun hne => absurd rfl (hne i r)⟩
        · exact ⟨m, by simpa [List.getElem?_set_ne hal] using h, rfl, fun _ => rfl⟩
      · exact ⟨m, h, rfl, fun _ => rfl⟩
    · exact ⟨m, h, rfl, fun _ => rfl⟩
  | newLat | newPos => exact ⟨m, h, rfl, fun _ => rfl⟩
  | assign | writeLat | writePos =>
    simp only [step]
    repeat' split
    all_goals exact ⟨m, h, rfl, fun _ => rfl⟩

theorem step_cell {w : Arrays} {op : ArrOp} {c : ℕ} {o : CellObj} (h : w.cells[c]? = some o) :
    ∃ k, (w.step op).1.cells[c]? = some { o with num := k } ∧ ((∀ n, op ≠ .assign c n) → k = o.num) ∧
      (k = o.num ∨ ∃ N, w.nums[k]? = some N) := by
  cases op with
  | construct a b c =>
    rcases construct_cases w a b c with e | ⟨_, _, _, _, _, _, _, _, e⟩
    · exact ⟨o.num, by simp only [step]; rw [e]; exact h, fun _ => rfl, .inl rfl⟩
    · exact ⟨o.num, by simp only [step]; rw [e]; exact append_getElem? h _, fun _ => rfl, .inl rfl⟩
  | assign a n =>
    simp only [step]
    split
    · rename_i o' N h1 h2
      by_cases hac : a = c
      · subst hac
        obtain rfl := Option.some.inj (h.symm.trans h1)
        have hlt := (List.getElem?_eq_some_iff.1 h).1
        exact ⟨n, List.getElem?_set_self hlt, fun hne => absurd rfl (hne n), .inr ⟨N, h2⟩⟩
      · exact ⟨o.num, by simpa [List.getElem?_set_ne hac] using h, fun _ => rfl, .inl rfl⟩
    · exact ⟨o.num, h, fun _ => rfl, .inl rfl⟩
  | newLat | newPos | newNum => exact ⟨o.num, h, fun _ => rfl, .inl rfl⟩
  | writeLat | writePos | writeNum =>
    simp only [step]
    repeat' split
    all_goals exact ⟨o.num, h, fun _ => rfl, .inl rfl⟩

/-- a cell that exists after a step existed before or was just constructed -/
theorem step_cell_old {w : Arrays} {op : ArrOp} {c : ℕ} {o : CellObj} (h : (w.step op).1.cells[c]? = some o) :
    (∃ o', w.cells[c]? = some o') ∨ ∃ l p n L P N g, op = .construct l p n ∧ w.lats[l]? = some L ∧ w.poss[p]? = some P ∧
      w.nums[n]? = some N ∧ GCell.new L P N = .ok g ∧ c = w.cells.length ∧ o = ⟨l, w.poss.length, w.nums.length, w.nums.length, g.numCount⟩ ∧
      (w.step op).1 = ⟨w.lats, w.poss ++ [g.positions], w.nums ++ [g.numbers],
        w.cells ++ [⟨l, w.poss.length, w.nums.length, w.nums.length, g.numCount⟩]⟩ := by
  by_cases hc : c < w.cells.length
  · exact .inl ⟨_, List.getElem?_eq_getElem hc⟩
  right
  have hlt := (List.getElem?_eq_some_iff.1 h).1
  cases op with
  | construct l p n =>
    rcases construct_cases w l p n with e | ⟨L, P, N, g, h1, h2, h3, hg, e⟩
    · simp only [step] at hlt
      rw [e] at hlt
      omega
    · simp only [step] at h hlt ⊢
      rw [e] at h hlt
      simp only [List.length_append, List.length_singleton] at hlt
      obtain rfl : c = w.cells.length := by omega
      simp only [List.getElem?_concat_length, Option.some.injEq] at h
      exact ⟨l, p, n, L, P, N, g, rfl, h1, h2, h3, hg, rfl, h.symm, by rw [e]⟩
  | newLat | newPos | newNum => exact absurd hlt hc
  | assign | writeLat | writePos | writeNum =>
    exfalso
    simp only [step] at hlt
    repeat' split at hlt
    all_goals first | exact hc hlt | (simp only [List.length_set] at hlt; exact hc hlt)

/-! ## invariants of all histories -/

/-- every array of a cell exists, the arrays seen by spglib have one entry per site and belong to this cell only -/
structure Ok (w : Arrays) : Prop where
  arr : ∀ (c : ℕ) (o : CellObj), w.cells[c]? = some o → (∃ L, w.lats[o.lat]? = some L) ∧ (∃ N, w.nums[o.num]? = some N) ∧
    ∃ P S, w.poss[o.pos]? = some P ∧ w.nums[o.spgNum]? = some S ∧ S.length = P.length
  own : ∀ (c c' : ℕ) (o o' : CellObj), c ≠ c' → w.cells[c]? = some o → w.cells[c']? = some o' → o.pos ≠ o'.pos ∧ o.spgNum ≠ o'.spgNum

theorem ok_empty : Ok empty := ⟨fun c o h => by simp [empty] at h, fun c c' o o' _ h => by simp [empty] at h⟩

theorem Ok.step {w : Arrays} (hw : Ok w) (op : ArrOp) : Ok (w.step op).1 := by
  constructor
  · intro c o ho
    rcases step_cell_old ho with ⟨o', h'⟩ | ⟨l, p, n, L, P, N, g, rfl, h1, h2, h3, hg, rfl, rfl, e⟩
    · obtain ⟨⟨L, hL⟩, ⟨N, hN⟩, P, S, hP, hS, hPS⟩ := hw.arr c o' h'
      obtain ⟨k, hk, -, hk'⟩ := step_cell (op := op) h'
      obtain rfl := Option.some.inj (ho.symm.trans hk)
      obtain ⟨L', a1, _⟩ := step_lat (op := op) hL
      obtain ⟨P', b1, b2, _⟩ := step_pos (op := op) hP
      obtain ⟨S', d1, d2, _⟩ := step_num (op := op) hS
      refine ⟨⟨L', a1⟩, ?_, P', S', b1, d1, by rw [d2, hPS, b2]⟩
      rcases hk' with rfl | ⟨M, hM⟩
      · obtain ⟨N', e1, _⟩ := step_num (op := op) hN
        exact ⟨N', e1⟩
      · obtain ⟨N', e1, _⟩ := step_num (op := op) hM
        exact ⟨N', e1⟩
    · rw [e]
      refine ⟨⟨L, h1⟩, ⟨g.numbers, by simp⟩, g.positions, g.numbers, by simp, by simp, ?_⟩
      obtain ⟨_, _, l1, l2, _⟩ := C09_sites_rearranged L P N g hg
      rw [l1, l2]
  · intro c c' o o' hne ho ho'
    rcases step_cell_old ho with ⟨a, h⟩ | ⟨l, p, n, L, P, N, g, rfl, h1, h2, h3, hg, rfl, rfl, e⟩
    · rcases step_cell_old ho' with ⟨a', h'⟩ | ⟨l, p, n, L, P, N, g, rfl, h1, h2, h3, hg, rfl, rfl, e⟩
      · obtain ⟨k, hk, _⟩ := step_cell (op := op) h
        obtain ⟨k', hk', _⟩ := step_cell (op := op) h'
        obtain rfl := Option.some.inj (ho.symm.trans hk)
        obtain rfl := Option.some.inj (ho'.symm.trans hk')
        exact hw.own c c' a a' hne h h'
      · obtain ⟨k, hk, _⟩ := step_cell (op := .construct l p n) h
        obtain rfl := Option.some.inj (ho.symm.trans hk)
        obtain ⟨_, _, P, S, hP, hS, _⟩ := hw.arr c a h
        exact ⟨(List.getElem?_eq_some_iff.1 hP).1.ne, (List.getElem?_eq_some_iff.1 hS).1.ne⟩
    · rcases step_cell_old ho' with ⟨a', h'⟩ | ⟨_, _, _, _, _, _, _, _, _, _, _, _, rfl, _, _⟩
      · obtain ⟨k, hk, _⟩ := step_cell (op := .construct l p n) h'
        obtain rfl := Option.some.inj (ho'.symm.trans hk)
        obtain ⟨_, _, P, S, hP, hS, _⟩ := hw.arr c' a' h'
        exact ⟨(List.getElem?_eq_some_iff.1 hP).1.ne', (List.getElem?_eq_some_iff.1 hS).1.ne'⟩
      · exact absurd rfl hne

theorem run_append (w : Arrays) (a b : List ArrOp) : w.run (a ++ b) = (w.run a).run b := List.foldl_append

theorem Ok.run {w : Arrays} (hw : Ok w) (ops : List ArrOp) : Ok (w.run ops) := by
  induction ops generalizing w with
  | nil => exact hw
  | cons op ops ih => exact ih (hw.step op)

theorem view_of {w : Arrays} {c : ℕ} {o : CellObj} {L : M3 ℚ} {P : List (V3 ℚ)} {N S : List ℤ} (h : w.cells[c]? = some o)
    (hL : w.lats[o.lat]? = some L) (hP : w.poss[o.pos]? = some P) (hN : w.nums[o.num]? = some N) (hS : w.nums[o.spgNum]? = some S) :
    w.view c = some ⟨L, P, N, S, o.count⟩ := by
  unfold view
  rw [h]
  simp only [Option.bind_eq_bind, Option.bind_some, hL, hP, hN, hS]
  rfl

theorem view_some {w : Arrays} {c : ℕ} {g : GCell} (h : w.view c = some g) : ∃ o, w.cells[c]? = some o ∧ w.lats[o.lat]? = some g.lattice ∧
    w.poss[o.pos]? = some g.positions ∧ w.nums[o.num]? = some g.numbers ∧ w.nums[o.spgNum]? = some g.spgNumbers ∧ o.count = g.numCount := by
  unfold view at h
  simp only [Option.bind_eq_bind, Option.bind_eq_some_iff] at h
  obtain ⟨o, h1, l, h2, p, h3, n, h4, s, h5, h6⟩ := h
  obtain rfl := Option.some.inj h6
  exact ⟨o, h1, h2, h3, h4, h5, rfl⟩

/-- a history that does not write to an array leaves it alone -/
theorem run_lat {w : Arrays} {ops : List ArrOp} {l : ℕ} {m : M3 ℚ} (h : w.lats[l]? = some m) (hne : ∀ op ∈ ops, ∀ i r, op ≠ .writeLat l i r) :
    (w.run ops).lats[l]? = some m := by
  induction ops generalizing w with
  | nil => exact h
  | cons op ops ih =>
    obtain ⟨m', h1, h2⟩ := step_lat (op := op) h
    rw [h2 (hne op (by simp))] at h1
    exact ih h1 fun o ho => hne o (by simp [ho])

theorem run_pos {w : Arrays} {ops : List ArrOp} {l : ℕ} {m : List (V3 ℚ)} (h : w.poss[l]? = some m)
    (hne : ∀ op ∈ ops, ∀ i r, op ≠ .writePos l i r) : (w.run ops).poss[l]? = some m := by
  induction ops generalizing w with
  | nil => exact h
  | cons op ops ih =>
    obtain ⟨m', h1, _, h2⟩ := step_pos (op := op) h
    rw [h2 (hne op (by simp))] at h1
    exact ih h1 fun o ho => hne o (by simp [ho])

theorem run_num {w : Arrays} {ops : List ArrOp} {l : ℕ} {m : List ℤ} (h : w.nums[l]? = some m)
    (hne : ∀ op ∈ ops, ∀ i r, op ≠ .writeNum l i r) : (w.run ops).nums[l]? = some m := by
  induction ops generalizing w with
  | nil => exact h
  | cons op ops ih =>
    obtain ⟨m', h1, _, h2⟩ := step_num (op := op) h
    rw [h2 (hne op (by simp))] at h1
    exact ih h1 fun o ho => hne o (by simp [ho])

theorem run_cell {w : Arrays} {ops : List ArrOp} {c : ℕ} {o : CellObj} (h : w.cells[c]? = some o) :
    ∃ k, (w.run ops).cells[c]? = some { o with num := k } ∧ ((∀ op ∈ ops, ∀ n, op ≠ .assign c n) → k = o.num) := by
  induction ops generalizing w o with
  | nil => exact ⟨o.num, h, fun _ => rfl⟩
  | cons op ops ih =>
    obtain ⟨k, h1, h2, _⟩ := step_cell (op := op) h
    obtain ⟨k', h3, h4⟩ := ih h1
    refine ⟨k', h3, fun hne => ?_⟩
    rw [h4 fun o ho => hne o (by simp [ho]), h2 (hne op (by simp))]

end Arrays

open Arrays

/-! ## the theorems -/

/-- **C95, construction.** On the heap the constructor does what it does on values, changes no existing cell, and leaves nothing behind if
it raises an exception. -/
theorem C95_construct (l p n : ℕ) (L : M3 ℚ) (P : List (V3 ℚ)) (N : List ℤ) (w : Arrays)
    (hL : w.lats[l]? = some L) (hP : w.poss[p]? = some P) (hN : w.nums[n]? = some N) :
    (∀ e, GCell.new L P N = .error e → w.step (.construct l p n) = (w, .error e)) ∧
    ∀ g, GCell.new L P N = .ok g → ∃ c w', w.step (.construct l p n) = (w', .ok (some c)) ∧ w'.view c = some g ∧ w.view c = none ∧
      ∀ c' g', w.view c' = some g' → w'.view c' = some g' := by
  constructor
  · intro e he
    simp only [Arrays.step, Arrays.construct, hL, hP, hN, he]
  · intro g hg
    refine ⟨w.cells.length, _, by simp only [Arrays.step, Arrays.construct, hL, hP, hN, hg]; rfl, ?_, ?_, ?_⟩
    · obtain ⟨e1, _, _, _, e2⟩ := C09_sites_rearranged L P N g hg
      rw [view_of (L := L) (P := g.positions) (N := g.numbers) (S := g.numbers) (o := ⟨l, w.poss.length, w.nums.length, w.nums.length, g.numCount⟩)
        (by simp) (by simpa using hL) (by simp) (by simp) (by simp)]
      rw [← e1]
      conv_lhs => rw [show (⟨g.lattice, g.positions, g.numbers, g.numbers, g.numCount⟩ : GCell) =
        ⟨g.lattice, g.positions, g.numbers, g.spgNumbers, g.numCount⟩ by rw [e2]]
    · unfold Arrays.view
      simp
    · intro c' g' h'
      obtain ⟨o, a1, a2, a3, a4, a5, a6⟩ := view_some h'
      rw [view_of (w := ⟨w.lats, w.poss ++ [g.positions], w.nums ++ [g.numbers], _⟩) (append_getElem? a1 _) a2 (append_getElem? a3 _)
        (append_getElem? a4 _) (append_getElem? a5 _), a6]

/-- **C95, assignment.** `cell.numbers = arr` changes the numbers of this cell only; spglib goes on to see the old ones, and the number of
sites stays the old one. -/
theorem C95_assign (c r : ℕ) (g : GCell) (ns : List ℤ) (w : Arrays)
    (hg : w.view c = some g) (hr : w.nums[r]? = some ns) :
    ((w.step (.assign c r)).1.view c = some ⟨g.lattice, g.positions, ns, g.spgNumbers, g.numCount⟩) ∧
      ∀ c', c' ≠ c → (w.step (.assign c r)).1.view c' = w.view c' := by
  obtain ⟨o, a1, a2, a3, a4, a5, a6⟩ := view_some hg
  have hlt := (List.getElem?_eq_some_iff.1 a1).1
  constructor
  · simp only [Arrays.step, a1, hr]
    rw [view_of (w := ⟨w.lats, w.poss, w.nums, w.cells.set c { o with num := r }⟩) (o := { o with num := r }) (by simp [hlt]) a2 a3 hr a5, a6]
  · intro c' hne
    simp only [Arrays.step, a1, hr]
    unfold Arrays.view
    simp only [List.getElem?_set_ne (Ne.symm hne)]

/-- the setter on values, which the other properties use, is the assignment on the heap -/
theorem C95_setter (c r : ℕ) (g : GCell) (ns : List ℤ) (w : Arrays) (hg : w.view c = some g) (hr : w.nums[r]? = some ns) :
    (w.step (.assign c r)).1.view c = some (g.setNumbers ns) ∧ (g.setNumbers ns).numbers = ns ∧ (g.setNumbers ns).spgNumbers = g.spgNumbers ∧
      (g.setNumbers ns).lattice = g.lattice ∧ (g.setNumbers ns).positions = g.positions ∧ (g.setNumbers ns).numCount = g.numCount :=
  ⟨(C95_assign c r g ns w hg hr).1, rfl, rfl, rfl, rfl, rfl⟩

/-- **C95, what spglib sees.** Whatever happens – assignments to `numbers` included – spglib sees the same lattice, positions and numbers
as long as nothing is written into the three arrays the cell was built with; so symmetry operations, Wyckoff letters, space group and
primitivity stay the same. -/
theorem C95_symmetry_view (ops ops' : List ArrOp) (c : ℕ) (o : CellObj) (g : GCell) (w : Arrays) (hw : w = Arrays.empty.run ops)
    (ho : w.cells[c]? = some o) (hg : w.view c = some g)
    (hne : ∀ op ∈ ops', (∀ i r, op ≠ .writeLat o.lat i r) ∧ (∀ i r, op ≠ .writePos o.pos i r) ∧ ∀ i z, op ≠ .writeNum o.spgNum i z) :
    ∃ ns, (w.run ops').view c = some ⟨g.lattice, g.positions, ns, g.spgNumbers, g.numCount⟩ := by
  obtain ⟨o', a1, a2, a3, a4, a5, a6⟩ := view_some hg
  obtain rfl := Option.some.inj (ho.symm.trans a1)
  obtain ⟨k, b1, _⟩ := run_cell (ops := ops') a1
  have hok : Ok (w.run ops') := by rw [hw]; exact (ok_empty.run ops).run ops'
  obtain ⟨_, ⟨N, hN⟩, _⟩ := hok.arr c _ b1
  refine ⟨N, ?_⟩
  rw [view_of b1 (run_lat a2 fun op h => (hne op h).1) (run_pos a3 fun op h => (hne op h).2.1) hN (run_num a5 fun op h => (hne op h).2.2), a6]

/-- **C95, the two views agree** on a cell whose `numbers` were never assigned, whatever is written into any array; and in any case spglib
sees one number per site. -/
theorem C95_synchronous (ops : List ArrOp) (c : ℕ) (g : GCell) (hg : (Arrays.empty.run ops).view c = some g) :
    g.spgNumbers.length = g.positions.length ∧ ((∀ n, ArrOp.assign c n ∉ ops) → g.spgNumbers = g.numbers) := by
  obtain ⟨o, a1, a2, a3, a4, a5, a6⟩ := view_some hg
  refine ⟨?_, fun hne => ?_⟩
  · obtain ⟨_, _, P, S, h1, h2, h3⟩ := (ok_empty.run ops).arr c o a1
    obtain rfl := Option.some.inj (h1.symm.trans a3)
    obtain rfl := Option.some.inj (h2.symm.trans a5)
    exact h3
  · suffices h : ∀ (ops : List ArrOp) (w : Arrays), (∀ n, ArrOp.assign c n ∉ ops) → (∀ o, w.cells[c]? = some o → o.num = o.spgNum) →
        ∀ o, (w.run ops).cells[c]? = some o → o.num = o.spgNum by
      have e := h ops Arrays.empty hne (by simp [Arrays.empty]) o a1
      rw [e] at a4
      exact Option.some.inj (a5.symm.trans a4)
    intro ops
    induction ops with
    | nil => exact fun w _ h => h
    | cons op ops ih =>
      intro w hne hw
      refine ih (w.step op).1 (fun n hn => hne n (by simp [hn])) fun o h => ?_
      rcases step_cell_old h with ⟨o', h'⟩ | ⟨l, p, n, L, P, N, g, rfl, h1, h2, h3, hg, rfl, rfl, e⟩
      · obtain ⟨k, k1, k2, _⟩ := step_cell (op := op) h'
        obtain rfl := Option.some.inj (h.symm.trans k1)
        rw [k2 fun n hn => hne n (by simp [hn])]
        exact hw o' h'
      · rfl

/-- **C95, the arrays of the caller.** Positions and numbers are copied: after the construction the caller may write into any array of
positions or numbers that existed before, may build further cells and assign their numbers; the cell stays as it was built, if
neither its lattice array is written to nor its numbers are assigned. -/
theorem C95_copies (ops' : List ArrOp) (l p n c : ℕ) (g : GCell) (w w' : Arrays)
    (hc : w.step (.construct l p n) = (w', .ok (some c))) (hg : w'.view c = some g)
    (hl : ∀ op ∈ ops', ∀ i r, op ≠ .writeLat l i r) (ha : ∀ op ∈ ops', ∀ k, op ≠ .assign c k)
    (hp : ∀ a i r, ArrOp.writePos a i r ∈ ops' → a < w.poss.length) (hn : ∀ a i z, ArrOp.writeNum a i z ∈ ops' → a < w.nums.length) :
    (w'.run ops').view c = some g := by
  obtain ⟨L, P, N, g', h1, h2, h3, hg', rfl, rfl⟩ := construct_ok hc
  obtain ⟨o, a1, a2, a3, a4, a5, a6⟩ := view_some hg
  have ho : o = ⟨l, w.poss.length, w.nums.length, w.nums.length, g'.numCount⟩ := by simpa using a1.symm
  subst ho
  obtain ⟨k, b1, b2⟩ := run_cell (ops := ops') a1
  rw [b2 ha] at b1
  rw [view_of b1 (run_lat a2 hl) (run_pos a3 fun op h i r e => ?_) (run_num a4 fun op h i r e => ?_) (run_num a5 fun op h i r e => ?_)]
  · rw [a6]
  · subst e; exact absurd (hp _ _ _ h) (lt_irrefl _)
  · subst e; exact absurd (hn _ _ _ h) (lt_irrefl _)
  · subst e; exact absurd (hn _ _ _ h) (lt_irrefl _)

/-- **C95, separate cells.** No two cells share positions or what spglib takes for the numbers: writing into these arrays of one cell does not
change what spglib sees of another one. -/
theorem C95_separate (ops : List ArrOp) (c c' : ℕ) (o : CellObj) (g : GCell) (w : Arrays) (hw : w = Arrays.empty.run ops) (hcc : c ≠ c')
    (ho : w.cells[c]? = some o) (hg : w.view c' = some g) :
    (∀ i r, (w.step (.writePos o.pos i r)).1.view c' = some g) ∧
      ∀ i z, ∃ ns, (w.step (.writeNum o.spgNum i z)).1.view c' = some ⟨g.lattice, g.positions, ns, g.spgNumbers, g.numCount⟩ := by
  obtain ⟨o', a1, a2, a3, a4, a5, a6⟩ := view_some hg
  have hok : Ok w := by rw [hw]; exact ok_empty.run ops
  obtain ⟨n1, n2⟩ := hok.own c c' o o' hcc ho a1
  constructor
  · intro i r
    have run1 : w.run [.writePos o.pos i r] = (w.step (.writePos o.pos i r)).1 := rfl
    rw [← run1]
    obtain ⟨k, b1, b2⟩ := run_cell (ops := [.writePos o.pos i r]) a1
    rw [b2 (by simp)] at b1
    rw [view_of b1 (run_lat a2 (by simp)) (run_pos a3 (by simp [n1])) (run_num a4 (by simp)) (run_num a5 (by simp)), a6]
  · intro i z
    exact C95_symmetry_view ops [.writeNum o.spgNum i z] c' o' g w hw a1 hg (by simp [n2])

/-- the rows of a lattice array -/
def latticeRows (m : M3 ℚ) : List (V3 ℚ) := [m.1, m.2.1, m.2.2]

/-- **C95, writing through the properties.** `cell.lattice[i] = row`, `cell.positions[i] = row` and `cell.numbers[i] = z` change just this row or entry of the cell
(negative indices count from the end); the last one is seen by spglib exactly if the numbers were not assigned since construction. An index out of range is an
`IndexError` and changes nothing. -/
theorem C95_write (c : ℕ) (o : CellObj) (g : GCell) (w : Arrays) (ho : w.cells[c]? = some o) (hg : w.view c = some g) :
    (∀ (i : Fin 3) row, ∃ L, (w.step (.writeLat o.lat i row)).1.view c = some ⟨L, g.positions, g.numbers, g.spgNumbers, g.numCount⟩ ∧
      latticeRows L = (latticeRows g.lattice).set i row) ∧
    (∀ i row, Spec.InRange g.positions.length i → (w.step (.writePos o.pos i row)).1.view c =
      some ⟨g.lattice, g.positions.set (i % (g.positions.length : ℤ)).toNat row, g.numbers, g.spgNumbers, g.numCount⟩) ∧
    (∀ i z, Spec.InRange g.numbers.length i → (w.step (.writeNum o.num i z)).1.view c =
      some ⟨g.lattice, g.positions, g.numbers.set (i % (g.numbers.length : ℤ)).toNat z,
        if o.num = o.spgNum then g.numbers.set (i % (g.numbers.length : ℤ)).toNat z else g.spgNumbers, g.numCount⟩) ∧
    (∀ i row, ¬ Spec.InRange g.positions.length i → w.step (.writePos o.pos i row) = (w, .error .indexError)) ∧
    (∀ i z, ¬ Spec.InRange g.numbers.length i → w.step (.writeNum o.num i z) = (w, .error .indexError)) := by
  obtain ⟨o', a1, a2, a3, a4, a5, a6⟩ := view_some hg
  obtain rfl := Option.some.inj (ho.symm.trans a1)
  have l2 := (List.getElem?_eq_some_iff.1 a2).1
  have l3 := (List.getElem?_eq_some_iff.1 a3).1
  have l4 := (List.getElem?_eq_some_iff.1 a4).1
  refine ⟨fun i row => ⟨setRow g.lattice i row, ?_, ?_⟩, fun i row h => ?_, fun i z h => ?_, fun i row h => ?_, fun i z h => ?_⟩
  · simp only [Arrays.step, a2]
    rw [view_of (w := ⟨w.lats.set o.lat (setRow g.lattice i row), w.poss, w.nums, w.cells⟩) ho (List.getElem?_set_self l2) a3 a4 a5, a6]
  · match i with
    | 0 => rfl
    | 1 => rfl
    | 2 => rfl
  · simp only [Arrays.step, a3, pySet_in row h]
    rw [view_of (w := ⟨w.lats, w.poss.set o.pos _, w.nums, w.cells⟩) ho a2 (List.getElem?_set_self l3) a4 a5, a6]
  · simp only [Arrays.step, a4, pySet_in z h]
    by_cases e : o.num = o.spgNum
    · rw [if_pos e, view_of (w := ⟨w.lats, w.poss, w.nums.set o.num _, w.cells⟩) ho a2 a3 (List.getElem?_set_self l4)
        (by rw [← e]; exact List.getElem?_set_self l4), a6]
    · rw [if_neg e, view_of (w := ⟨w.lats, w.poss, w.nums.set o.num _, w.cells⟩) ho a2 a3 (List.getElem?_set_self l4)
        ((List.getElem?_set_ne e).trans a5), a6]
  · simp only [Arrays.step, a3, pySet_out row h]
  · simp only [Arrays.step, a4, pySet_out z h]

/-- **C95, the lattice is shared.** Cells built with the same lattice array – as all cells of a generator are – have the same lattice after
any history. -/
theorem C95_lattice_shared (ops ops₁ ops₂ : List ArrOp) (l p n p' n' c c' : ℕ) (w₁ w₂ w₃ : Arrays)
    (h₁ : (Arrays.empty.run ops).step (.construct l p n) = (w₁, .ok (some c))) (h₂ : (w₁.run ops₁).step (.construct l p' n') = (w₂, .ok (some c')))
    (h₃ : w₃ = w₂.run ops₂) : ∃ g g', w₃.view c = some g ∧ w₃.view c' = some g' ∧ g.lattice = g'.lattice := by
  obtain ⟨L, P, N, g, a1, a2, a3, a4, rfl, rfl⟩ := construct_ok h₁
  obtain ⟨L', P', N', g', b1, b2, b3, b4, rfl, rfl⟩ := construct_ok h₂
  have hok : Ok w₃ := by
    rw [h₃]
    have := (((ok_empty.run ops).step (.construct l p n)).run ops₁).step (.construct l p' n')
    rw [h₁] at this
    rw [h₂] at this
    exact this.run ops₂
  obtain ⟨k, c1, _⟩ := run_cell (ops := ops₁) (w := ⟨(Arrays.empty.run ops).lats, (Arrays.empty.run ops).poss ++ [g.positions],
    (Arrays.empty.run ops).nums ++ [g.numbers], (Arrays.empty.run ops).cells ++ [⟨l, _, _, _, g.numCount⟩]⟩) List.getElem?_concat_length
  obtain ⟨k1, d1, _⟩ := run_cell (ops := ops₂) (w := ⟨_, _, _, _⟩) (append_getElem? c1 _)
  obtain ⟨k2, d2, _⟩ := run_cell (ops := ops₂) (w := ⟨_, _, _, _⟩) (List.getElem?_concat_length)
  rw [← h₃] at d1 d2
  obtain ⟨⟨L1, x1⟩, ⟨N1, x2⟩, P1, S1, x3, x4, _⟩ := hok.arr _ _ d1
  obtain ⟨⟨L2, y1⟩, ⟨N2, y2⟩, P2, S2, y3, y4, _⟩ := hok.arr _ _ d2
  exact ⟨_, _, view_of d1 x1 x3 x2 x4, view_of d2 y1 y3 y2 y4, Option.some.inj (x1.symm.trans y1)⟩

/-! ## concrete histories -/

/-- a program: two cells on one lattice array; the numbers of cell 0 are replaced by those of cell 1; writes into arrays -/
def exArrOps : List ArrOp :=
  [.newLat ((4, 0, 0), (0, 4, 0), (0, 0, 4)), .newPos [(1/2, 0, 0), (0, 0, 0)], .newNum [29, 5], .construct 0 0 0, .newNum [5, 5], .construct 0 0 2,
    .assign 0 3]

/-- what the program ends with: spglib sees copper and boron in cell 0, the cell itself has boron only -/
example : (Arrays.empty.run exArrOps).view 0 = some ⟨((4, 0, 0), (0, 4, 0), (0, 0, 4)), [(0, 0, 0), (1/2, 0, 0)], [5, 5], [5, 29], 2⟩ ∧
    (Arrays.empty.run exArrOps).view 1 = some ⟨((4, 0, 0), (0, 4, 0), (0, 0, 4)), [(0, 0, 0), (1/2, 0, 0)], [5, 5], [5, 5], 2⟩ := by
  decide +kernel

/-- the two cells now share the array of numbers: a write through one of them is seen in the other, but by spglib in cell 1 only -/
example : ((Arrays.empty.run exArrOps).step (.writeNum 3 (-1) 6)).1.view 0 =
      some ⟨((4, 0, 0), (0, 4, 0), (0, 0, 4)), [(0, 0, 0), (1/2, 0, 0)], [5, 6], [5, 29], 2⟩ ∧
    ((Arrays.empty.run exArrOps).step (.writeNum 3 (-1) 6)).1.view 1 =
      some ⟨((4, 0, 0), (0, 4, 0), (0, 0, 4)), [(0, 0, 0), (1/2, 0, 0)], [5, 6], [5, 6], 2⟩ := by
  decide +kernel

/-- the hypotheses of `C95_copies` and `C95_lattice_shared`: both constructions succeed -/
example : ((Arrays.empty.run (exArrOps.take 3)).step (.construct 0 0 0)).2 = .ok (some 0) ∧
    ((Arrays.empty.run (exArrOps.take 5)).step (.construct 0 0 2)).2 = .ok (some 1) := by
  decide +kernel

/-- **C95, a consequence.** A cell built with copper and boron whose numbers are then all set to boron has a translation by half a lattice
vector as symmetry; spglib, still seeing copper and boron, does not report it. The occupation generator of the cell then yields two
structures that are translates of each other; the generator of an equal, freshly built cell yields one. -/
theorem C95_stale : ∃ (hash : List ℤ → ℕ) (c fresh : GCell) (a b : GCell) (zn : Specie),
    (Arrays.empty.run exArrOps).view 0 = some c ∧ (Arrays.empty.run exArrOps).view 1 = some fresh ∧
    c.lattice = fresh.lattice ∧ c.positions = fresh.positions ∧ c.numbers = fresh.numbers ∧
    (do let g ← OGen.new c [(identM, (0, 0, 0))] ["a", "b"]; g.genNodupUnitary hash 1 zn) = .ok [a, b] ∧
    a.positions.zip a.numbers = [((0, 0, 0), 30), ((1/2, 0, 0), 5)] ∧ b.positions.zip b.numbers = [((0, 0, 0), 5), ((1/2, 0, 0), 30)] ∧
    (do let g ← OGen.new fresh [(identM, (0, 0, 0)), (identM, (1/2, 0, 0))] ["a", "a"]; g.genNodupUnitary hash 1 zn) = .ok [a] := by
  refine ⟨fun l => l.foldl (fun a z => a * 100 + z.toNat) 0,
    ⟨((4, 0, 0), (0, 4, 0), (0, 0, 4)), [(0, 0, 0), (1/2, 0, 0)], [5, 5], [5, 29], 2⟩,
    ⟨((4, 0, 0), (0, 4, 0), (0, 0, 4)), [(0, 0, 0), (1/2, 0, 0)], [5, 5], [5, 5], 2⟩,
    ⟨((4, 0, 0), (0, 4, 0), (0, 0, 4)), [(0, 0, 0), (1/2, 0, 0)], [30, 5], [30, 5], 2⟩,
    ⟨((4, 0, 0), (0, 4, 0), (0, 0, 4)), [(0, 0, 0), (1/2, 0, 0)], [5, 30], [5, 30], 2⟩, ⟨"Zn", 30⟩, ?_⟩
  decide +kernel

end Verif
