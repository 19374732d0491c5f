import Verif.Props.Derivative
import Verif.Props.Rounded
import Verif.Props.SupAborts
import Verif.Props.Commands

/-! # C115: superlattices written to files, then occupations of one of the files -/

namespace Verif

open Spec

/-! ## decorations of the shaped cell -/

/-- spglib, asked to standardise the cell with every atom labelled by its own index, answers with a cell of the same labels whose crystal is the labelled
crystal moved by the map `B` of space -/
structure Relabelled (e : Ext) (c : GCell) (B : V3 ℚ → V3 ℚ) (L : M3 ℚ) (pos : List (V3 ℚ)) (labels : List ℤ) : Prop where
  answer : e.standardize (c.lattice, c.positions, (List.range c.numbers.length).map fun (i : ℕ) => (i : ℤ)) = some (L, pos, labels)
  length : pos.length = labels.length
  same : labels.Perm ((List.range c.numbers.length).map fun (i : ℕ) => (i : ℤ))
  moved : CartCrystal L (pos.zip labels) = (fun s : V3 ℚ × ℤ => (B s.1, s.2)) ''
      CartCrystal c.lattice (c.positions.zip ((List.range c.numbers.length).map fun (i : ℕ) => (i : ℤ)))

theorem mapM_getElem? {α β} (f : α → Py β) : ∀ (l : List α) (bs : List β), l.mapM f = .ok bs → ∀ (i : ℕ) b, bs[i]? = some b → ∃ a, l[i]? = some a ∧ f a = .ok b
  | [], bs, h, i, b, hb => by
    rw [List.mapM_nil] at h
    injection h with h
    subst h; simp at hb
  | a :: l, bs, h, i, b, hb => by
    rw [List.mapM_cons] at h
    obtain ⟨x, h1, h2⟩ := bind_ok h
    obtain ⟨xs, h3, h4⟩ := bind_ok h2
    injection h4 with h4
    subst h4
    cases i with
    | zero => exact ⟨a, rfl, by rw [h1]; simpa using hb⟩
    | succ i => exact mapM_getElem? f l xs h3 i b (by simpa using hb)

theorem mapM_len {α β} {f : α → Py β} : ∀ {l : List α} {bs : List β}, l.mapM f = .ok bs → bs.length = l.length
  | [], bs, h => by
    rw [List.mapM_nil] at h
    injection h with h
    subst h; rfl
  | a :: l, bs, h => by
    rw [List.mapM_cons] at h
    obtain ⟨x, h1, h2⟩ := bind_ok h
    obtain ⟨xs, h3, h4⟩ := bind_ok h2
    injection h4 with h4
    subst h4
    rw [List.length_cons, List.length_cons, mapM_len h3]

theorem fancy_source {α} {xs : List α} {idx : List ℕ} {ys : List α} (h : fancy xs idx = .ok ys) {j : ℕ} {y : α} (hy : ys[j]? = some y) :
    ∃ i, idx[j]? = some i ∧ xs[i]? = some y := by
  rw [fancy_ok_iff] at h
  have h1 : (ys.map some)[j]? = some (some y) := by rw [List.getElem?_map, hy]; rfl
  rw [← h, List.getElem?_map] at h1
  cases hi : idx[j]? with
  | none => rw [hi] at h1; cases h1
  | some i => rw [hi] at h1; exact ⟨i, rfl, by simpa using h1⟩

theorem pyGet_ok {α} {l : List α} {i : ℤ} {x : α} (h : pyGet l i = .ok x) : ∃ k, pyIndex l.length i = some k ∧ l[k]? = some x := by
  unfold pyGet at h
  split at h
  · rename_i k hk
    split at h
    · rename_i y hy
      injection h with h
      exact ⟨k, hk, by rw [hy, h]⟩
    · cases h
  · cases h

/-- the shaped cell, and the crystal of any other decoration of the cell as a decoration of the shaped cell -/
theorem shaped_decoration {e : Ext} {c : GCell} (hlen : c.positions.length = c.numbers.length) (hne : c.positions ≠ []) {B : V3 ℚ → V3 ℚ}
    {L : M3 ℚ} {pos : List (V3 ℚ)} {labels : List ℤ} (hr : Relabelled e c B L pos labels) {a : List ℤ} (ha : a.length = c.positions.length) :
    ∃ d, c.getShapedCell e = .ok d ∧ d.numCount = d.numbers.length ∧ d.numbers.Perm c.numbers ∧ ∃ b : List ℤ, b.length = d.positions.length ∧
      CartCrystal d.lattice (d.positions.zip b) = (fun s : V3 ℚ × ℤ => (B s.1, s.2)) '' CartCrystal c.lattice (c.positions.zip a) ∧
      ∀ (j : ℕ) z w, d.numbers[j]? = some z → b[j]? = some w → ∃ l : ℕ, c.numbers[l]? = some z ∧ a[l]? = some w := by
  have hal : a.length = c.numbers.length := by omega
  obtain ⟨d, d1, d2, d3, d4⟩ := C78_shaped e c hlen hne L pos labels B hr.answer hr.length hr.same hr.moved
  obtain ⟨b, b1, b2, b3, b4⟩ := C78_shaped e ⟨c.lattice, c.positions, a, a, a.length⟩ (by simp only; omega) hne L pos labels B (by simp only; rw [hal]; exact hr.answer)
    hr.length (by simp only; rw [hal]; exact hr.same) (by simp only; rw [hal]; exact hr.moved)
  have d1' := d1
  unfold GCell.getShapedCell at d1' b1
  simp only [hal] at b1
  rw [hr.answer] at d1' b1
  simp only at d1' b1
  obtain ⟨ns, m1, n1⟩ := bind_ok d1'
  obtain ⟨as, m2, n2⟩ := bind_ok b1
  obtain ⟨-, -, p1, p2, p3, -, p5⟩ := new_ok_inv n1
  obtain ⟨-, -, q1, q2, q3, -, q5⟩ := new_ok_inv n2
  have hpos : b.positions = d.positions := by
    rw [p1] at q1; injection q1 with q1; exact q1.symm
  have hbl := (new_lengths n2).2
  have hdl := new_lengths n1
  refine ⟨d, d1, ?_, d3, b.numbers, ?_, ?_, ?_⟩
  · rw [p5, hdl.2, hr.length]
    have := mapM_len m1
    omega
  · rw [hbl, hdl.1]
  · rw [← hpos, p3, ← q3]; exact b4
  · intro j z w hz hw
    obtain ⟨i, i1, i2⟩ := fancy_source p2 hz
    obtain ⟨i', i1', i3⟩ := fancy_source q2 hw
    rw [i1] at i1'
    injection i1' with i1'
    subst i1'
    obtain ⟨l, l1, l2⟩ := mapM_getElem? _ _ _ m1 i z i2
    obtain ⟨l', l1', l3⟩ := mapM_getElem? _ _ _ m2 i w i3
    rw [l1] at l1'
    injection l1' with l1'
    subst l1'
    obtain ⟨k, k1, k2⟩ := pyGet_ok l2
    obtain ⟨k', k1', k3⟩ := pyGet_ok l3
    rw [hal, k1] at k1'
    injection k1' with k1'
    subst k1'
    exact ⟨k, k2, k3⟩

/-! ## the files of `suplat` -/

/-- what is read from the file of a cell without ghost atoms -/
theorem written_twin (root : ℚ → ℚ) {d : GCell} (hb : Built d) (hn : d.numCount = d.numbers.length) (hz : ∀ n ∈ d.numbers, n ≠ 0)
    (hd : (d.positions.map siteKey).Nodup) (hp : ∀ x ∈ d.positions, All3 (Clear (505 / 10 ^ 4)) x) {q : List Char} {x : FileContent}
    (h : writeFile d q none = .ok x) : ∃ c', readFile root x q none = .ok c' ∧ c'.positions = d.positions.map (V3.map round64) ∧
      Twin (505 / 10 ^ 7) d.lattice (V3.map (V3.map round64) d.lattice) d c' := by
  have hk := known_of_writeFile h
  unfold writeFile at h
  unfold readFile
  obtain ⟨f, h1, h⟩ := bind_ok h
  rw [h1]
  cases f with
  | yaml =>
    obtain ⟨y, c', y1, y2, y3, y4⟩ := C107_yaml d hb hn hk hp
    rw [y1] at h
    injection h with h
    subst h
    exact ⟨c', y2, y3, y4⟩
  | vasp =>
    obtain ⟨t, c', y1, y2, y3, y4⟩ := C107_poscar root d true hb hn (fun n hm => ⟨hk n hm, hz n hm⟩) hd hp
    rw [y1] at h
    injection h with h
    subst h
    exact ⟨c', y2, y3, y4⟩

/-- names that end with distinct suffixes of four characters and the same tail are distinct -/
theorem nodup_of_suffixes {α} (choices : ℕ → List Char) (h4 : ∀ i, (choices i).length = 4) (tail : List Char) :
    ∀ (cs : List α) (k : ℕ) (ws : List (List Char × FileContent)), List.Forall₂ (fun ci w => ∃ t, w.1 = t ++ choices ci.2 ++ tail) (cs.zipIdx k) ws →
      Set.InjOn choices {i | k ≤ i ∧ i < k + cs.length} → (ws.map (·.1)).Nodup
  | [], k, ws, h, _ => by
    rw [List.zipIdx_nil] at h
    cases h
    exact List.nodup_nil
  | c :: cs, k, ws, h, hi => by
    rw [List.zipIdx_cons] at h
    cases h with
    | @cons _ w _ ws h1 h2 =>
      rw [List.map_cons, List.nodup_cons]
      rw [List.length_cons] at hi
      refine ⟨fun hm => ?_, nodup_of_suffixes choices h4 tail cs (k + 1) ws h2 (hi.mono fun i h' => ?_)⟩
      obtain ⟨w', hw', he⟩ := List.mem_map.1 hm
      obtain ⟨ci, hci, t', ht'⟩ := forall₂_mem_right h2 hw'
      obtain ⟨t, ht⟩ := h1
      have hlt := List.mem_zipIdx hci
      rw [ht', ht] at he
      have e1 := (List.append_inj' he rfl).1
      have e2 := (List.append_inj' e1 (by rw [h4, h4])).2
      have := hi (Set.mem_ofPred_eq ▸ ⟨by omega, by omega⟩) (Set.mem_ofPred_eq ▸ ⟨by omega, by omega⟩) e2
      simp only at this
      · omega
      · rw [Set.mem_ofPred_eq] at h' ⊢
        exact ⟨by omega, by omega⟩

theorem supRecord_tail {e : Ext} {v : ℕ} {outmode dir suffix : List Char} {s : SLCell} {w : List Char × FileContent}
    (h : SupRecord e v outmode dir suffix s w) : ∃ t, w.1 = t ++ suffix ++ (['.'] ++ outmode) := by
  obtain ⟨_, _, _, _, h, _⟩ := h
  obtain ⟨t, ht⟩ := pathJoin_suffix dir ("SUPLAT_".toList ++ natStr v ++ ['_'] ++ suffix ++ ['.'] ++ outmode)
  exact ⟨t ++ ("SUPLAT_".toList ++ natStr v ++ ['_']), by rw [h, ht]; simp only [List.append_assoc]⟩

theorem occRecord_tail {e : Ext} {refined : Bool} {outmode dir suffix : List Char} {c : GCell} {w : List Char × FileContent}
    (h : OccRecord e refined outmode dir suffix c w) : ∃ t, w.1 = t ++ suffix ++ (['.'] ++ outmode) := by
  obtain ⟨_, cm, _, _, h, _⟩ := h
  obtain ⟨t, ht⟩ := pathJoin_suffix dir ("STRUCTURE_".toList ++ cm ++ ['_'] ++ suffix ++ ['.'] ++ outmode)
  exact ⟨t ++ ("STRUCTURE_".toList ++ cm ++ ['_']), by rw [h, ht]; simp only [List.append_assoc]⟩

/-- a cell whose file is read back with its sites in the same order -/
structure GoodShape (d : GCell) : Prop where
  volume : volume d.lattice ≠ 0
  distinct : (d.positions.map siteKey).Nodup
  clear : ∀ x ∈ d.positions, All3 (Clear (505 / 10 ^ 4)) x

/-- **C115, the first program.** A finished run of `suplat` (four random characters per name, no two names alike) leaves, for every sublattice `A` of the
asked index and every crystal `D` on the parent's sites that is periodic along `A`, a file with a cell `d` on whose sites that crystal lies, up to an operation
of the parent and the map by which spglib standardises the superlattice. -/
theorem C115_superlattices {e : Ext} {infile : List Char} {content : FileContent} {comment : Option (List Char)} {v : ℕ} {outmode : List Char} {fs fs1 : Fs}
    {unit : GCell} (hin : readFile e.root content infile none = .ok unit) (hrun : suplat e infile content comment v false outmode fs = (fs1, .ok ()))
    (hset : SetOrder e.setList) (hvol : volume unit.lattice ≠ 0) (hops : SymContract Cong unit.positions (e.symmetry unit))
    (hel : KeepsElements Cong unit.positions (e.symmetry unit) unit.numbers) (hG : PointGroup ((e.symmetry unit).map (·.1))) (h0 : 0 < v) (hv : v < 2000)
    {ss : List SLCell} (hss : hnfsFromN e.setList e.itemFirst unit ((e.symmetry unit).map (·.1)) v = .ok ss)
    (h4 : ∀ i, RandomSuffix (e.choices i)) (hsuf : Set.InjOn e.choices {i | i < ss.length}) (shape : SLCell → V3 ℚ → V3 ℚ)
    (hshape : ∀ s ∈ ss, ∀ c, s.toGeneralCell = .ok c → (∃ L pos labels, Relabelled e c (shape s) L pos labels) ∧ ∀ d, c.getShapedCell e = .ok d → GoodShape d)
    (A : AddSubgroup (V3 ℤ)) (hA : A.index = v) (D : V3 ℚ → ℤ) (hper : PeriodicOn unit.positions A D) :
    ∃ s ∈ ss, ∃ q x d, dictGet fs1.files q = some x ∧ (∃ cm name, q = pathJoin (pathJoin e.cwd ("SUPLAT_".toList ++ cm)) name) ∧
      (∃ c, s.toGeneralCell = .ok c ∧ c.getShapedCell e = .ok d) ∧ writeFile d q none = .ok x ∧ Built d ∧ d.numCount = d.numbers.length ∧ (∀ n ∈ d.numbers, n ∈ unit.numbers) ∧ GoodShape d ∧
      ∃ op ∈ e.symmetry unit, ∃ b : List ℤ, b.length = d.positions.length ∧
        CartCrystal d.lattice (d.positions.zip b) =
          (fun s' : V3 ℚ × ℤ => (shape s s'.1, s'.2)) '' Moved unit.lattice op (Decorated unit.lattice unit.positions D) ∧
        ∀ (i : ℕ) z w, d.numbers[i]? = some z → b[i]? = some w → ∃ y ∈ AtomSites unit.positions, w = D y ∧
          ∀ z', (y, z') ∈ Crystal (unit.positions.zip unit.numbers) → z' = z := by
  obtain ⟨cell, cm, ss', ws, r1, -, -, r4, r5⟩ := C66_suplat hrun
  rw [hin] at r1
  injection r1 with r1
  subst r1
  simp only [Bool.false_eq_true, if_false] at r4
  rw [hss] at r4
  injection r4 with r4
  subst r4
  have hu := readFile_built hin
  obtain ⟨out, o1, o2, o3⟩ := superlattice_of e.setList hset e.itemFirst unit (e.symmetry unit) hG v h0 hv
  rw [hss] at o1
  injection o1 with o1
  subst o1
  obtain ⟨s, hs, op, hop, hdet, hrot⟩ := o3 A hA
  obtain ⟨u1, u2, u3, u4⟩ := o2 s hs
  obtain ⟨t1, t2⟩ := isHnf_triangular u1
  obtain ⟨c, c1, c2, c3, a, a1, a2, a3⟩ := derivative_core unit hu.ne_nil hu.length.symm hvol hops hel hop hdet t1 t2 (by omega) hrot hper
  have hc : s.toGeneralCell = .ok c := by
    unfold SLCell.toGeneralCell
    rw [u2, u3, u4]; exact c1
  obtain ⟨⟨L, pos, labels, hrel⟩, hgood⟩ := hshape s hs c hc
  obtain ⟨d, d1, d2, d3, b, b1, b2, b3⟩ := shaped_decoration c2.length.symm c2.ne_nil hrel a1
  have hnod : (ws.map (·.1)).Nodup := by
    refine nodup_of_suffixes e.choices (fun i => (h4 i).1) (['.'] ++ outmode) ss 0 ws (r5.records.imp fun _ _ h => supRecord_tail h) ?_
    exact hsuf.mono fun i hi => by have := hi.2; simpa using this
  obtain ⟨i, hi, his⟩ := List.mem_iff_getElem.1 hs
  obtain ⟨w, w1, w2, w3, -⟩ := C66_suplat_own_files_partial r5 hnod i s (by rw [List.getElem?_eq_getElem hi, his])
  obtain ⟨c', d', k1, k2, k3, k4⟩ := w2
  rw [hc] at k1
  injection k1 with k1
  subst k1
  rw [d1] at k2
  injection k2 with k2
  subst k2
  refine ⟨s, hs, w.1, w.2, d, w3, ⟨cm, _, k3⟩, ⟨c, hc, d1⟩, k4, shaped_built d1, d2, ?_, hgood d d1, op, hop, b, b1, by rw [b2, a2], ?_⟩
  · intro n hn
    have hn := d3.subset hn
    obtain ⟨c', e1, -, -, -, e5, -⟩ := enlarge_atomSites (B := unit.lattice) hu.ne_nil hu.length.symm t1 t2 (by omega)
    rw [c1] at e1
    injection e1 with e1
    subst e1
    obtain ⟨j, hj, rfl⟩ := List.mem_iff_getElem.1 hn
    have hlc := c2.length
    have hm : (c.positions[j]'(by omega), c.numbers[j]) ∈ c.positions.zip c.numbers :=
      List.mem_iff_getElem?.2 ⟨j, List.getElem?_zip_eq_some.2 ⟨List.getElem?_eq_getElem _, List.getElem?_eq_getElem _⟩⟩
    obtain ⟨t, ht, -, e⟩ := e5 _ hm
    rw [show c.numbers[j] = t.2 from e]
    exact (List.of_mem_zip ht).2
  · intro j z w' hz' hw'
    obtain ⟨l, l1, l2⟩ := b3 j z w' hz' hw'
    exact a3 l z w' l1 l2

/-! ## the second program -/

theorem round64_idem (x : ℚ) : round64 (round64 x) = round64 x := by
  unfold round64
  have h : around 6 (around 4 (around 6 x)) = around 4 (around 6 x) := by
    unfold around
    have : ((rint (rint (x * 10 ^ 6) / 10 ^ 6 * 10 ^ 4 : ℚ) : ℚ) / 10 ^ 4) * 10 ^ 6 = ((rint (rint (x * 10 ^ 6) / 10 ^ 6 * 10 ^ 4 : ℚ) * 100 : ℤ) : ℚ) := by
      push_cast; ring
    rw [this, rint_intCast]
    push_cast; ring
  rw [h, around_idem]

/-- what spglib is to answer about the cell read from the file of `d`: the operations `ops` of the exact cell, with translations that may be wrong by `δ`, and
no rounding boundary close to an image of a site -/
structure SpglibOn (e : Ext) (d : GCell) (ops : List Op) (δ : ℚ) : Prop where
  exact_ : SymContract Cong d.positions ops
  unimodular : ∀ g ∈ ops, Unimodular g.1
  near : ∀ c', Twin (505 / 10 ^ 7) d.lattice (V3.map (V3.map round64) d.lattice) d c' → List.Forall₂ (NearOp δ) ops (e.symmetry c')
  clear : ∀ g ∈ ops, ∀ x ∈ d.positions, ClearImage (505 / 10 ^ 7) δ g x

theorem gen2NodupLoop_length (hash : List ℤ → ℕ) (perms : List (List ℕ)) : ∀ (cs : List GCell) (iso : List ℕ) (out : List GCell),
    gen2NodupLoop hash perms iso cs = .ok out → out.length ≤ cs.length
  | [], iso, out, h => by
    rw [gen2NodupLoop] at h; injection h with h; subst h; rfl
  | a :: cs, iso, out, h => by
    rw [gen2NodupLoop] at h
    split at h
    · exact (gen2NodupLoop_length hash perms cs iso out h).trans (by simp)
    · obtain ⟨i', _, h2⟩ := bind_ok h
      obtain ⟨rest, h3, h4⟩ := bind_ok h2
      injection h4 with h4
      subst h4
      have := gen2NodupLoop_length hash perms cs i' rest h3
      simpa using this

/-- **C115, the second program.** A finished run of `ocubiter` on the file of a cell `d` (element, species and number given, no filters) leaves, for every way
`b` to replace that many atoms of the element in `d`, a file with a structure `r` of the exact cell `d`, rounded as files are, whose crystal is that of `b` moved by an operation of `d`. -/
theorem C115_occupations (root : ℚ → ℚ) {e : Ext} {d : GCell} (hb : Built d) (hn : d.numCount = d.numbers.length) (hz : ∀ n ∈ d.numbers, n ≠ 0) (hg : GoodShape d)
    {q : List Char} {x : FileContent} (hw : writeFile d q none = .ok x) {o : OccOpts} {fs fs' : Fs} (hrun : ocubiter e q x o fs = (fs', .ok ()))
    {s : String} {ele sp : Specie} (ho : o.element = some s) (hs : Specie.ofSymbol s = .ok ele) (hsp : Specie.ofSymbol (o.speckle.getD "G") = .ok sp)
    {k : ℕ} (hk : o.nspeckle = some (k : ℤ)) (htr : o.trs = []) (hmpr : o.mpr = false) (href : o.refined = false) {ops : List Op} {δ : ℚ} (hsym : SpglibOn e d ops δ)
    (h4 : ∀ i, RandomSuffix (e.choices i)) (hsuf : Set.InjOn e.choices {i | i ≤ (d.numbers.count ele.Z).choose k})
    (hinj : Set.InjOn e.hash {m | m.length = d.positions.length ∧ ∃ m' ∈ {m | ∃ S : Finset ℕ, (∀ i ∈ S, d.numbers[i]? = some ele.Z) ∧ S.card = k ∧
      Subst d.numbers S sp.Z m}, GeomEquiv siteKey d.positions ops m' m})
    {b : List ℤ} {S : Finset ℕ} (hS : ∀ i ∈ S, d.numbers[i]? = some ele.Z) (hSk : S.card = k) (hSb : Subst d.numbers S sp.Z b) :
    ∃ r : GCell, r.lattice = d.lattice ∧ r.positions = d.positions ∧
      (∃ op ∈ ops, CartCrystal r.lattice (r.positions.zip r.numbers) = Moved d.lattice op (CartCrystal d.lattice (d.positions.zip b))) ∧
      ∃ w, dictGet fs'.files w.1 = some w.2 ∧ (HasAtom r → ReadsBack root round64 w r) := by
  obtain ⟨cell, ele', sp', n, cm, tr, g', cs, ws, r1, r2, r3, r4⟩ := C67_ocubiter hrun
  obtain ⟨c', t1, t2, t3⟩ := written_twin e.root hb hn hz hg.distinct hg.clear hw
  have hcc := r1.read
  rw [t1] at hcc
  injection hcc with hcc
  subst hcc
  obtain ⟨z, hz1, hz2⟩ := r1.target
  have hele : ele'.Z = ele.Z := by
    rcases hz1 with ⟨h, -⟩ | ⟨s', sp0, h, h2, h3⟩
    · rw [ho] at h; cases h
    · rw [ho] at h
      injection h with h
      subst h
      rw [hs] at h2
      injection h2 with h2
      subst h2
      rw [fromNum_Z hz2, h3]
  have hsp' : sp' = sp := by
    have := r1.speckle
    rw [hsp] at this
    injection this with this
    exact this.symm
  subst hsp'
  have hnk : n.toNat = k := by rw [r1.count, hk]; simp
  rw [hnk] at r3
  have htr' : tr = none := by
    rcases r1.restricted with ⟨-, h⟩ | ⟨s', d', rest, sp0, h, -⟩
    · exact h
    · rw [htr] at h; cases h
  subst htr'
  have hT := C107_generator t3 (e.wyckoffs c') (hsym.near c' t3)
    (fun y hy => by rw [show (1000 : ℚ) * (505 / 10 ^ 7) = 505 / 10 ^ 4 by norm_num]; exact hg.clear y hy) hsym.clear
  rw [r1.gen] at hT
  generalize hgx : OGen.new d ops (e.wyckoffs c') = gx at hT
  cases hT with
  | @ok g _ hT =>
  have hset : GenSetup d ops (e.wyckoffs c') g := ⟨hb, hg.distinct, (contract_of_exact hg.distinct hsym.exact_).1, hgx⟩
  have hC := (C107_structures e.hash hT).2.2.2.2.2.2.1 ele' k sp'
  rw [r3] at hC
  obtain ⟨out, e1, e2, e3⟩ := C21_nodup_of_ele e.hash d ops (e.wyckoffs c') g hset ele' k sp' _ rfl (by rw [hele]; exact hinj)
  rw [e1] at hC
  cases hC with
  | ok hC =>
  have hlen := hb.length
  obtain ⟨r0, hr0, hrb⟩ := e3.2.1 b ⟨S, fun i hi => by rw [hele]; exact hS i hi, hSk, hSb⟩
  obtain ⟨r, hr, rfl⟩ := List.mem_map.1 hr0
  obtain ⟨_, _, _, hr1⟩ := e3.1 _ hr0
  obtain ⟨op, hop, hfin⟩ := derivative_representative hg.volume hset hsym.exact_ hsym.unimodular (by rw [hr1.1, hlen]) (by rw [hSb.1, hlen]) hrb
  refine ⟨r, (e2 r hr).1, (e2 r hr).2, ⟨op, hop, by rw [(e2 r hr).1, (e2 r hr).2, hfin]⟩, ?_⟩
  obtain ⟨r', hr', hrr⟩ := forall₂_mem_left hC hr
  have hbt := genNodupOfEle_built r3
  obtain ⟨hposs, h2⟩ : (∀ c ∈ cs, c.positions = c'.positions) ∧ cs.length ≤ (d.numbers.count ele.Z).choose k := by
    unfold OGen.genNodupOfEle at r3
    obtain ⟨dup, f1, f2⟩ := bind_ok r3
    have hi' : g'.init = c' := by
      have := r1.gen
      unfold OGen.new at this
      obtain ⟨rows, _, this⟩ := bind_ok this
      injection this with this
      rw [← this]
    obtain ⟨cells, _, q1, _, _, q4, q5, _⟩ := C16_of_ele_exact g' (by rw [hi']; exact readFile_built t1) ele' k sp'
    rw [f1] at q1
    injection q1 with q1
    subst q1
    rw [hi', t3.numbers, hele] at q5
    refine ⟨fun c hc => ?_, by rw [← q5]; exact gen2NodupLoop_length _ _ _ _ _ f2⟩
    obtain ⟨S', -, hq⟩ := forall₂_mem_right q4 (gen2NodupLoop_subset _ _ _ _ _ f2 c hc)
    rw [hq.2.1, hi']
  have hnod : (ws.map (·.1)).Nodup := by
    refine nodup_of_suffixes e.choices (fun i => (h4 i).1) (['.'] ++ o.outmode) _ 1 ws (r4.records.imp fun _ _ h => occRecord_tail h) ?_
    refine hsuf.mono fun i hi => ?_
    have h1 : (passers e o.mpr none cs).length ≤ cs.length := List.length_filter_le _ _
    have := hi.2
    show i ≤ _
    omega
  obtain ⟨w, w1, d', w2, w3⟩ := outcome_delivers root r4 hnod hbt r' hr' ⟨fun h => by rw [hmpr] at h; (cases h), fun _ _ h => by cases h⟩
  refine ⟨w, w1, fun ha => ?_⟩
  rw [href] at w2
  injection w2 with w2
  subst w2
  obtain ⟨f, f1, f2, f3⟩ := w3 (by obtain ⟨n, n1, n2⟩ := ha; exact ⟨n, by rw [hrr.numbers]; exact n1, n2⟩)
  have hidem : ∀ p : V3 ℚ, V3.map round64 (V3.map round64 p) = V3.map round64 p := fun p => by
    unfold V3.map; simp only [round64_idem]
  have hpos' : r'.positions = r.positions.map (V3.map round64) := by rw [hposs r' hr', t2, (e2 r hr).2]
  refine ⟨f, f1, ?_, ?_⟩
  · rw [f2, hrr.lattice', (e2 r hr).1]
    unfold V3.map
    simp only [round64_idem]
  · refine f3.trans (List.Perm.of_eq ?_)
    rw [hpos', hrr.numbers, List.zip_map_left, List.filter_map, List.map_map]
    refine List.map_congr_left fun t _ => ?_
    simp only [Function.comp, Prod.map, id, hidem]

/-- **C115, both programs.** Let a crystal arise from the parent crystal by replacing atoms of one element by another species, periodically along a sublattice
of index `v`. A finished run of `suplat` for volume `v` leaves a file such that a finished run of `ocubiter` on that file, for the right number of replaced
atoms, leaves a file with that crystal: rounded to the decimals of the files, up to an operation of the parent, the map by which spglib standardises the
superlattice, and an operation of the standardised cell. -/
theorem C115_workflow (root : ℚ → ℚ) {e : Ext} {infile : List Char} {content : FileContent} {comment : Option (List Char)} {v : ℕ} {outmode : List Char} {fs fs1 : Fs}
    {unit : GCell} (hin : readFile e.root content infile none = .ok unit) (hrun : suplat e infile content comment v false outmode fs = (fs1, .ok ()))
    (hset : SetOrder e.setList) (hvol : volume unit.lattice ≠ 0) (hops : SymContract Cong unit.positions (e.symmetry unit))
    (hel : KeepsElements Cong unit.positions (e.symmetry unit) unit.numbers) (hG : PointGroup ((e.symmetry unit).map (·.1))) (h0 : 0 < v) (hv : v < 2000)
    (hz : ∀ n ∈ unit.numbers, n ≠ 0) {ss : List SLCell} (hss : hnfsFromN e.setList e.itemFirst unit ((e.symmetry unit).map (·.1)) v = .ok ss)
    (h4 : ∀ i, RandomSuffix (e.choices i)) (hsuf : Set.InjOn e.choices {i | i < ss.length}) (shape : SLCell → V3 ℚ → V3 ℚ)
    (hshape : ∀ s ∈ ss, ∀ c, s.toGeneralCell = .ok c → (∃ L pos labels, Relabelled e c (shape s) L pos labels) ∧ ∀ d, c.getShapedCell e = .ok d → GoodShape d)
    (ele sp : Specie) (A : AddSubgroup (V3 ℤ)) (hA : A.index = v) (D : V3 ℚ → ℤ) (hper : PeriodicOn unit.positions A D)
    (hD : ∀ y ∈ AtomSites unit.positions, (y, D y) ∈ Crystal (unit.positions.zip unit.numbers) ∨
      D y = sp.Z ∧ (y, ele.Z) ∈ Crystal (unit.positions.zip unit.numbers)) :
    ∃ s ∈ ss, ∃ op ∈ e.symmetry unit, ∃ q x d, ∃ k : ℕ, k ≤ d.numbers.count ele.Z ∧ dictGet fs1.files q = some x ∧
      (∃ cm name, q = pathJoin (pathJoin e.cwd ("SUPLAT_".toList ++ cm)) name) ∧ (∃ c, s.toGeneralCell = .ok c ∧ c.getShapedCell e = .ok d) ∧
      ∀ (e' : Ext) (o : OccOpts) (fs2 fs3 : Fs) (ops : List Op) (δ : ℚ), ocubiter e' q x o fs2 = (fs3, .ok ()) →
        (∃ t, o.element = some t ∧ Specie.ofSymbol t = .ok ele) → Specie.ofSymbol (o.speckle.getD "G") = .ok sp → o.nspeckle = some (k : ℤ) → o.trs = [] →
        o.mpr = false → o.refined = false → SpglibOn e' d ops δ → (∀ i, RandomSuffix (e'.choices i)) →
        Set.InjOn e'.choices {i | i ≤ (d.numbers.count ele.Z).choose k} →
        Set.InjOn e'.hash {m | m.length = d.positions.length ∧ ∃ m' ∈ {m | ∃ S : Finset ℕ, (∀ i ∈ S, d.numbers[i]? = some ele.Z) ∧ S.card = k ∧
          Subst d.numbers S sp.Z m}, GeomEquiv siteKey d.positions ops m' m} →
        ∃ r : GCell, r.lattice = d.lattice ∧ r.positions = d.positions ∧
          (∃ op' ∈ ops, CartCrystal r.lattice (r.positions.zip r.numbers) = Moved d.lattice op'
            ((fun s' : V3 ℚ × ℤ => (shape s s'.1, s'.2)) '' Moved unit.lattice op (Decorated unit.lattice unit.positions D))) ∧
          ∃ w, dictGet fs3.files w.1 = some w.2 ∧ (HasAtom r → ReadsBack root round64 w r) := by
  obtain ⟨s, hs, q, x, d, f1, f2, f3, f4, f5, f6, f7, f8, op, hop, b, b1, b2, b3⟩ :=
    C115_superlattices hin hrun hset hvol hops hel hG h0 hv hss h4 hsuf shape hshape A hA D hper
  have hlen := f5.length
  have hpt : ∀ i : ℕ, i < d.numbers.length → (b[i]? = d.numbers[i]?) ∨ (b[i]? = some sp.Z ∧ d.numbers[i]? = some ele.Z) := by
    intro i hi
    have e1 := List.getElem?_eq_getElem hi
    have e2 : b[i]? = some b[i] := List.getElem?_eq_getElem (by omega)
    obtain ⟨y, y1, y2, y3⟩ := b3 i _ _ e1 e2
    rcases hD y y1 with h | ⟨h, h'⟩
    · left
      rw [e1, e2, y2, y3 _ h]
    · right
      exact ⟨by rw [e2, y2, h], by rw [e1, y3 _ h']⟩
  let S : Finset ℕ := (Finset.range d.numbers.length).filter fun i => b[i]? ≠ d.numbers[i]?
  have hS : ∀ i ∈ S, d.numbers[i]? = some ele.Z := by
    intro i hi
    obtain ⟨h1, h2⟩ := Finset.mem_filter.1 hi
    rcases hpt i (Finset.mem_range.1 h1) with h | h
    · exact absurd h h2
    · exact h.2
  have hSb : Subst d.numbers S sp.Z b := by
    refine ⟨by omega, fun i hi => ?_⟩
    by_cases h : i ∈ S
    · rw [if_pos h]
      rcases hpt i hi with h' | h'
      · exact absurd h' (Finset.mem_filter.1 h).2
      · exact h'.1
    · rw [if_neg h]
      by_contra h'
      exact h (Finset.mem_filter.2 ⟨Finset.mem_range.2 hi, h'⟩)
  have hcard : S.card ≤ d.numbers.count ele.Z := by
    rw [count_eq_card]
    exact Finset.card_le_card fun i hi => Finset.mem_filter.2 ⟨(Finset.mem_filter.1 hi).1, hS i hi⟩
  refine ⟨s, hs, op, hop, q, x, d, S.card, hcard, f1, f2, f3, ?_⟩
  rintro e' o fs2 fs3 ops δ g1 ⟨t, g2, g3⟩ g4 g5 g6 g7 g8 g9 g10 g11 g12
  obtain ⟨r, r1, r2, ⟨op', hop', r3⟩, r4⟩ := C115_occupations root f5 f6 (fun n hn => hz n (f7 n hn)) f8 f4 g1 g2 g3 g4 g5 g6 g7 g8 g9 g10 g11 g12 hS rfl hSb
  exact ⟨r, r1, r2, ⟨op', hop', by rw [r3, b2]⟩, r4⟩

/-! ## concrete runs -/

/-- the four decimal digits of a number -/
def exSuffix (k : ℕ) : List Char := [Char.ofNat (48 + k / 1000 % 10), Char.ofNat (48 + k / 100 % 10), Char.ofNat (48 + k / 10 % 10), Char.ofNat (48 + k % 10)]

theorem exSuffix_random (k : ℕ) : RandomSuffix (exSuffix k) := by
  refine ⟨rfl, fun c hc => ?_⟩
  have h : ∀ n < 10, Char.ofNat (48 + n) ∈ "ABCDEFGHIJKLMNOPQRSTUVWXYZ0123456789".toList := by decide +kernel
  simp only [exSuffix, List.mem_cons, List.not_mem_nil, or_false] at hc
  rcases hc with rfl | rfl | rfl | rfl <;> exact h _ (Nat.mod_lt _ (by norm_num))

theorem exSuffix_inj : Set.InjOn exSuffix {i | i < 100} := by
  have h : ∀ i < 100, ∀ j < 100, exSuffix i = exSuffix j → i = j := by decide +kernel
  exact fun i hi j hj => h i hi j hj

/-- a test for `GoodShape` -/
def goodShapeTest (d : GCell) : Prop :=
  volume d.lattice ≠ 0 ∧ (d.positions.map siteKey).Nodup ∧ ∀ x ∈ d.positions, |1000 * x.1 - rint (1000 * x.1)| < 1 / 2 - 505 / 10 ^ 4 ∧
    |1000 * x.2.1 - rint (1000 * x.2.1)| < 1 / 2 - 505 / 10 ^ 4 ∧ |1000 * x.2.2 - rint (1000 * x.2.2)| < 1 / 2 - 505 / 10 ^ 4

instance (d : GCell) : Decidable (goodShapeTest d) := by unfold goodShapeTest; infer_instance

theorem goodShape_of_test {d : GCell} (h : goodShapeTest d) : GoodShape d :=
  ⟨h.1, h.2.1, fun x hx => ⟨clear_check (h.2.2 x hx).1, clear_check (h.2.2 x hx).2.1, clear_check (h.2.2 x hx).2.2⟩⟩

/-- an outside world whose spglib finds the identity only and standardises nothing -/
def exFlow1 : Ext := { exExt exSuffix with setList := fun l => l.dedup }

theorem exFlow1_setOrder : SetOrder exFlow1.setList := fun l => ⟨l.nodup_dedup, fun _ => List.mem_dedup⟩

/-- the seven superlattices of volume 2 -/
def exFlowSups : List SLCell := ((hnfsFromN exFlow1.setList exFlow1.itemFirst (exAtomCell 29) [((1, 0, 0), (0, 1, 0), (0, 0, 1))] 2).toOption).getD []

theorem exFlowSups_eq : hnfsFromN exFlow1.setList exFlow1.itemFirst (exAtomCell 29) [((1, 0, 0), (0, 1, 0), (0, 0, 1))] 2 = .ok exFlowSups := by
  have h : ∃ l, hnfsFromN exFlow1.setList exFlow1.itemFirst (exAtomCell 29) [((1, 0, 0), (0, 1, 0), (0, 0, 1))] 2 = .ok l := by
    obtain ⟨l, h, _⟩ := superlattice_of exFlow1.setList exFlow1_setOrder exFlow1.itemFirst (exAtomCell 29) (exFlow1.symmetry (exAtomCell 29)) (exSup_pointGroup (exAtomCell 29)) 2
      (by norm_num) (by norm_num)
    exact ⟨l, h⟩
  obtain ⟨l, h⟩ := h
  unfold exFlowSups
  rw [h]
  rfl

theorem exFlowSups_length : exFlowSups.length = 7 := by decide +kernel

theorem exFlowSups_good : ∀ s ∈ exFlowSups, ∀ c ∈ s.toGeneralCell.toOption, ∀ d ∈ (c.getShapedCell exFlow1).toOption, goodShapeTest d := by decide +kernel

def exFlowRun : Fs × Py Unit := suplat exFlow1 "a.yaml".toList (exAtom 29) (some ['x']) 2 false "vasp".toList ⟨[], []⟩

/-- the file system after the first program -/
def exFlowFs : Fs := exFlowRun.1

def exFlowOpts (k : ℕ) : OccOpts := ⟨none, some "Cu", some "Au", some k, [], false, "vasp".toList, false⟩

/-- the outside world of the second program -/
def exFlow2 : Ext := { exFlow1 with hash := exHash }

theorem exFlowRun_ends : exFlowRun.2 = .ok () := by decide +kernel

theorem exFlowRuns_end : ∀ kv ∈ exFlowFs.files, ∀ k ∈ [0, 1, 2], (ocubiter exFlow2 kv.1 kv.2 (exFlowOpts k) exFlowFs).2 = .ok () := by decide +kernel

theorem exFlowSups_count : ∀ s ∈ exFlowSups, ∀ c ∈ s.toGeneralCell.toOption, ∀ d ∈ (c.getShapedCell exFlow1).toOption, d.numbers = [29, 29] := by decide +kernel

theorem image_one (x : V3 ℚ) : Op.image (((1, 0, 0), (0, 1, 0), (0, 0, 1)), (0, 0, 0)) x = x := by simp [Op.image]

theorem one_contract {pos : List (V3 ℚ)} (hk : (pos.map siteKey).Nodup) : SymContract Cong pos [(((1, 0, 0), (0, 1, 0), (0, 0, 1)), (0, 0, 0))] := by
  have hdist : ∀ x ∈ pos, ∀ y ∈ pos, Cong x y → x = y := fun x hx y hy h => List.inj_on_of_nodup_map hk hx hy (siteKey_cong h.symm)
  refine ⟨?_, ?_, ⟨_, List.mem_singleton.2 rfl, fun x _ => by rw [image_one]; exact Cong.refl x⟩, ?_, ?_⟩
  · intro g hg x hx
    rw [List.mem_singleton.1 hg, image_one]
    exact ⟨x, hx, Cong.refl x⟩
  · intro g hg x hx y hy h
    rw [List.mem_singleton.1 hg, image_one, image_one] at h
    exact hdist x hx y hy h
  · intro f hf g hg
    refine ⟨_, List.mem_singleton.2 rfl, fun x _ y _ z _ h1 h2 => ?_⟩
    rw [List.mem_singleton.1 hg, image_one] at h1
    rw [List.mem_singleton.1 hf, image_one] at h2
    rw [image_one]; exact h1.trans h2
  · intro f hf
    refine ⟨_, List.mem_singleton.2 rfl, fun x _ y _ h => ?_⟩
    rw [List.mem_singleton.1 hf, image_one] at h
    rw [image_one]; exact h.symm

theorem exFlow2_spglib {d : GCell} (h : GoodShape d) : SpglibOn exFlow2 d [(((1, 0, 0), (0, 1, 0), (0, 0, 1)), (0, 0, 0))] 0 := by
  refine ⟨one_contract h.distinct, fun g hg => ?_, fun c' _ => ?_, fun g hg x hx => ?_⟩
  · rw [List.mem_singleton.1 hg]; unfold Unimodular; decide
  · exact .cons ⟨rfl, (0, 0, 0), by decide +kernel, by decide +kernel, by decide +kernel⟩ .nil
  · rw [List.mem_singleton.1 hg]
    obtain ⟨a, b, c⟩ := h.clear x hx
    have e : (1000 : ℚ) * (1 * (505 / 10 ^ 7) + 0) = 505 / 10 ^ 4 := by norm_num
    refine ⟨?_, ?_, ?_⟩ <;> rw [image_one] <;> simp only [rowSum, Int.cast_one, Int.cast_zero, abs_one, abs_zero, add_zero, zero_add] <;>
      rw [show (1000 : ℚ) * (1 * (505 / 10 ^ 7)) = 505 / 10 ^ 4 by norm_num] <;> assumption

theorem cartesian_surj {L : M3 ℚ} (hL : volume L ≠ 0) (y : V3 ℚ) : ∃ x, cartesian L x = y := by
  obtain ⟨⟨a, b, c⟩, ⟨d, e, f⟩, ⟨g, h, i⟩⟩ := L
  obtain ⟨p, q, r⟩ := y
  simp only [volume] at hL
  set v := a * (e * i - f * h) - b * (d * i - f * g) + c * (d * h - e * g) with hv
  refine ⟨((p * (e * i - f * h) + q * (f * g - d * i) + r * (d * h - e * g)) / v, (p * (c * h - b * i) + q * (a * i - c * g) + r * (b * g - a * h)) / v,
    (p * (b * f - c * e) + q * (c * d - a * f) + r * (a * e - b * d)) / v), ?_⟩
  simp only [cartesian, Prod.mk.injEq]
  refine ⟨?_, ?_, ?_⟩ <;> field_simp <;> rw [hv] <;> ring

theorem moved_one {L : M3 ℚ} {S : Set (V3 ℚ × ℤ)} (hL : volume L ≠ 0) : Moved L (((1, 0, 0), (0, 1, 0), (0, 0, 1)), (0, 0, 0)) S = S := by
  ext ⟨y, z⟩
  constructor
  · rintro ⟨x, z', h, e⟩
    rw [image_one] at e
    rwa [e]
  · intro h
    obtain ⟨x, rfl⟩ := cartesian_surj hL y
    exact ⟨x, z, h, by rw [image_one]⟩

theorem exLayers_repeat (pos : List (V3 ℚ)) : PeriodicOn pos (rowLattice ((1, 0, 0), (0, 2, 0), (0, 0, 1))) exLayers := by
  intro x _ v hv
  obtain ⟨k, rfl⟩ := (mem_rowLattice _ _).1 hv
  have : (∃ z : ℤ, (x + (((vecMul k ((1, 0, 0), (0, 2, 0), (0, 0, 1))).1 : ℚ), ((vecMul k ((1, 0, 0), (0, 2, 0), (0, 0, 1))).2.1 : ℚ),
      ((vecMul k ((1, 0, 0), (0, 2, 0), (0, 0, 1))).2.2 : ℚ))).2.1 = 2 * z) ↔ ∃ z : ℤ, x.2.1 = 2 * z := by
    simp only [vecMul, Prod.snd_add, Prod.fst_add]
    constructor
    · rintro ⟨z, hz⟩; refine ⟨z - k.2.1, ?_⟩; push_cast at hz ⊢; linarith
    · rintro ⟨z, hz⟩; refine ⟨z + k.2.1, ?_⟩; push_cast at hz ⊢; linarith
  classical
  exact if_congr this rfl rfl

theorem exLayers_cases (x : V3 ℚ) : exLayers x = 79 ∨ exLayers x = 29 := by
  unfold exLayers
  split
  · exact .inl rfl
  · exact .inr rfl

/-- copper with gold on every second layer: the two programs, run one after the other, leave a file with it -/
example (root : ℚ → ℚ) : ∃ (q : List Char) (x : FileContent) (k : ℕ) (r : GCell) (w : List Char × FileContent), dictGet exFlowFs.files q = some x ∧
    dictGet (ocubiter exFlow2 q x (exFlowOpts k) exFlowFs).1.files w.1 = some w.2 ∧ ReadsBack root round64 w r ∧
    CartCrystal r.lattice (r.positions.zip r.numbers) = Decorated (exAtomCell 29).lattice [(0, 0, 0)] exLayers := by
  have hw := C115_workflow root (e := exFlow1) (infile := "a.yaml".toList) (content := exAtom 29) (comment := some ['x'])
    (v := 2) (outmode := "vasp".toList) (fs := ⟨[], []⟩) (fs1 := exFlowFs) (unit := exAtomCell 29) (by decide +kernel) (Prod.ext rfl exFlowRun_ends)
    exFlow1_setOrder (by decide +kernel) (one_contract (by decide +kernel)) (by
      intro op _ i j x y hx hy _
      have hi : i < 1 := (List.getElem?_eq_some_iff.1 hx).1
      have hj : j < 1 := (List.getElem?_eq_some_iff.1 hy).1
      rw [Nat.lt_one_iff.1 hi, Nat.lt_one_iff.1 hj]) (exSup_pointGroup (exAtomCell 29)) (by norm_num) (by norm_num)
    (by decide) exFlowSups_eq exSuffix_random (by rw [exFlowSups_length]; exact exSuffix_inj.mono fun i hi => by simp only [Set.mem_ofPred_eq] at hi ⊢; omega)
    (fun _ => id) (fun s hs c hc => ⟨⟨c.lattice, c.positions, _, rfl, by rw [← (toGeneralCell_built hc).length]; simp, List.Perm.refl _, by simp⟩, fun d hd => goodShape_of_test
      (exFlowSups_good s hs c (by rw [hc]; rfl) d (by rw [hd]; rfl))⟩) exCu exAu (rowLattice ((1, 0, 0), (0, 2, 0), (0, 0, 1))) (by rw [rowLattice_index]; decide)
    exLayers (exLayers_repeat _) (by
      rintro y ⟨p, hp, hy⟩
      rcases exLayers_cases y with h | h
      · exact .inr ⟨h, (p, 29), by rw [List.mem_singleton.1 hp]; exact List.mem_singleton.2 rfl, hy, rfl⟩
      · exact .inl ⟨(p, 29), by rw [List.mem_singleton.1 hp]; exact List.mem_singleton.2 rfl, hy, h⟩)
  obtain ⟨s, hs, op, hop, q, x, d, k, hk, hq, -, ⟨c, hc, hd⟩, h⟩ := hw
  have hg := goodShape_of_test (exFlowSups_good s hs c (by rw [hc]; rfl) d (by rw [hd]; rfl))
  have hn := exFlowSups_count s hs c (by rw [hc]; rfl) d (by rw [hd]; rfl)
  have hk2 : k ≤ 2 := hk.trans (by rw [hn]; decide)
  obtain ⟨r, r1, r2, ⟨op', hop', r3⟩, w, w1, w2⟩ := h exFlow2 (exFlowOpts k) exFlowFs (ocubiter exFlow2 q x (exFlowOpts k) exFlowFs).1
    [(((1, 0, 0), (0, 1, 0), (0, 0, 1)), (0, 0, 0))] 0
    (Prod.ext rfl (exFlowRuns_end (q, x) (dictGet_mem hq) k (by interval_cases k <;> decide))) ⟨"Cu", rfl, by decide +kernel⟩ (by change Specie.ofSymbol "Au" = _; decide +kernel) rfl rfl rfl rfl
    (exFlow2_spglib hg) exSuffix_random (exSuffix_inj.mono fun i hi => by
      simp only [Set.mem_ofPred_eq, hn] at hi ⊢
      refine hi.trans_lt ?_
      interval_cases k <;> decide) (exHash_inj _)
  have hop : op = (((1, 0, 0), (0, 1, 0), (0, 0, 1)), (0, 0, 0)) := List.mem_singleton.1 hop
  subst hop
  obtain rfl := List.mem_singleton.1 hop'
  rw [moved_one hg.volume, moved_one (by decide +kernel)] at r3
  simp only [id_eq, Prod.mk.eta, Set.image_id'] at r3
  refine ⟨q, x, k, r, w, hq, w1, w2 ?_, r3⟩
  have hmem : (cartesian (exAtomCell 29).lattice (0, 0, 0), exLayers (0, 0, 0)) ∈ CartCrystal r.lattice (r.positions.zip r.numbers) := by
    rw [r3]
    exact ⟨_, ⟨(0, 0, 0), List.mem_singleton.2 rfl, Cong.refl _⟩, rfl⟩
  obtain ⟨t, ht, _, e⟩ := hmem
  refine ⟨t.2, (List.of_mem_zip ht).2, ?_⟩
  rw [← (Prod.mk.inj e).2]
  rcases exLayers_cases (0, 0, 0) with h | h <;> rw [h] <;> norm_num

/-! the second program with a symmetry that is more than the identity: three copper atoms in a row, thirds written with four decimals -/

/-- spglib finds the six operations, with rounded translations -/
def exFlow3 : Ext := { exExt exSuffix with hash := exHash, symmetry := fun _ => exThirdsOps' }

def exThirdsFile : FileContent := ((writeFile exThirds "/w/a.vasp".toList none).toOption).getD (.text [])

theorem exThirdsFile_eq : writeFile exThirds "/w/a.vasp".toList none = .ok exThirdsFile := by
  have h : (writeFile exThirds "/w/a.vasp".toList none).isOk = true := by decide +kernel
  unfold exThirdsFile
  revert h
  cases writeFile exThirds "/w/a.vasp".toList none with
  | ok x => intro; rfl
  | error er => intro h; cases h

theorem exThirds_run : (ocubiter exFlow3 "/w/a.vasp".toList exThirdsFile (exFlowOpts 1) ⟨[], []⟩).2 = .ok () := by decide +kernel

theorem exThirds_contract : SymContract Cong exThirds.positions exThirdsOps := by
  have h1 : ∀ g ∈ exThirdsOps, ∀ x ∈ exThirds.positions, ∃ y ∈ exThirds.positions, Cong (g.image x) y := by decide +kernel
  have h2 : ∀ g ∈ exThirdsOps, ∀ x ∈ exThirds.positions, ∀ y ∈ exThirds.positions, Cong (g.image x) (g.image y) → x = y := by decide +kernel
  have h3 : ∃ g ∈ exThirdsOps, ∀ x ∈ exThirds.positions, Cong (g.image x) x := by decide +kernel
  have h4 : ∀ f ∈ exThirdsOps, ∀ g ∈ exThirdsOps, ∃ h ∈ exThirdsOps, ∀ x ∈ exThirds.positions, ∀ y ∈ exThirds.positions, ∀ z ∈ exThirds.positions,
      Cong (g.image x) y → Cong (f.image y) z → Cong (h.image x) z := by decide +kernel
  have h5 : ∀ f ∈ exThirdsOps, ∃ g ∈ exThirdsOps, ∀ x ∈ exThirds.positions, ∀ y ∈ exThirds.positions, Cong (f.image x) y → Cong (g.image y) x := by decide +kernel
  exact ⟨h1, h2, h3, h4, h5⟩

theorem exThirds_spglib : SpglibOn exFlow3 exThirds exThirdsOps (1 / 10 ^ 4) := by
  refine ⟨exThirds_contract, by unfold Unimodular; decide +kernel, fun c' _ => ?_, fun g hg x hx => ?_⟩
  · refine .cons ⟨rfl, (0, 0, 0), ?_⟩ (.cons ⟨rfl, (0, 0, 0), ?_⟩ (.cons ⟨rfl, (-1, 0, 0), ?_⟩ (.cons ⟨rfl, (0, 0, 0), ?_⟩
      (.cons ⟨rfl, (0, 0, 0), ?_⟩ (.cons ⟨rfl, (0, 0, 0), ?_⟩ .nil))))) <;> exact ⟨by decide +kernel, by decide +kernel, by decide +kernel⟩
  · simp only [exThirdsOps, exThirds, List.mem_cons, List.not_mem_nil, or_false] at hg hx
    rcases hg with rfl | rfl | rfl | rfl | rfl | rfl <;> rcases hx with rfl | rfl | rfl <;>
      exact ⟨clear_check (by decide +kernel), clear_check (by decide +kernel), clear_check (by decide +kernel)⟩

/-- gold on the last atom: a file with it is left, up to an operation -/
example (root : ℚ → ℚ) : ∃ r : GCell, r.lattice = exThirds.lattice ∧ r.positions = exThirds.positions ∧
    (∃ op ∈ exThirdsOps, CartCrystal r.lattice (r.positions.zip r.numbers) =
      Moved exThirds.lattice op (CartCrystal exThirds.lattice (exThirds.positions.zip [29, 29, 79]))) ∧
    ∃ w, dictGet (ocubiter exFlow3 "/w/a.vasp".toList exThirdsFile (exFlowOpts 1) ⟨[], []⟩).1.files w.1 = some w.2 ∧ (HasAtom r → ReadsBack root round64 w r) := by
  refine C115_occupations root (d := exThirds) (e := exFlow3) ⟨((9, 0, 0), (0, 3, 0), (0, 0, 3)), [(0, 0, 0), (1 / 3, 0, 0), (2 / 3, 0, 0)], [29, 29, 29],
    by decide +kernel⟩ rfl (by decide) (goodShape_of_test (by decide +kernel)) exThirdsFile_eq (Prod.ext rfl exThirds_run) (s := "Cu") (ele := exCu) (sp := exAu)
    (k := 1) rfl (by decide +kernel) (by decide +kernel) rfl rfl rfl rfl exThirds_spglib exSuffix_random ?_ (exHash_inj _) (S := {2}) ?_ rfl ?_
  · refine exSuffix_inj.mono fun i hi => ?_
    simp only [Set.mem_ofPred_eq] at hi ⊢
    exact hi.trans_lt (by decide)
  · decide
  · refine ⟨rfl, fun i hi => ?_⟩
    have : i < 3 := hi
    interval_cases i <;> decide

end Verif
