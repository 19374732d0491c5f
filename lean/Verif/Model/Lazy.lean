import Verif.Model.Sogen

/-! # Lazy evaluation of `all_speckle_gen*` (ababe/stru/sogen.py:133-242)

The coroutine frames of `gen_add_one_speckle*` and `gen_2nodup_gen`, the shared buffers of `itertools.tee`, and the
outer generator, as one state machine driven by the consumer's `next()` calls.

Simplifications: the consumer does not modify the cells it receives; `ProgressBar` passes items through; the while-loops
inside the frames are run with a fuel argument (`none` = fuel exhausted, excluded by `C25_lazy_schedule`). -/

namespace Verif

/-- frame of `gen_add_one_speckle*` (ababe/stru/sogen.py:139-151, 154-166, 169-182): the cell being processed with the
candidates not yet looked at, the id to be recorded on resumption (`id_db[num_id] = None` follows the `yield`), `id_db`,
and whether the generator has finished -/
structure AddSt where
  cur : Option (GCell × List (List ℤ))
  pend : Option ℕ
  db : List ℕ
  done : Bool

/-- frame of `gen_2nodup_gen` (ababe/stru/sogen.py:184-196): `isoset`, the cell just yielded (its images are recorded on
resumption), and whether the generator has finished -/
structure NodSt where
  isoset : List ℕ
  pend : Option GCell
  done : Bool

/-- the objects made in one iteration of `all_speckle_gen*` (ababe/stru/sogen.py:213-217): the two frames and the `tee`
(items pulled so far and the position of the two branches) -/
structure Level where
  add : AddSt
  nod : NodSt
  buf : List GCell
  outPos : ℕ
  genPos : ℕ

/-- the iterator held in the variable `gen` of `all_speckle_gen*`: the initial one-element generator
(ababe/stru/sogen.py:206) or the second branch of the latest `tee`, whose source reads the iterator below -/
inductive Chain
  | base (items : List GCell)
  | level (l : Level) (below : Chain)

/-- freshly created generator objects (nothing runs before the first `next`) -/
def Level.fresh : Level := ⟨⟨none, none, [], false⟩, ⟨[], none, false⟩, [], 0, 0⟩

/-- `id_db[num_id] = None` on resumption (ababe/stru/sogen.py:151, 166, 182) -/
def AddSt.resumeDb (s : AddSt) : List ℕ := match s.pend with | some h => h :: s.db | none => s.db

/-- `self._update_isoset(isoset, cell.numbers, sym_perm)` on resumption (ababe/stru/sogen.py:196) -/
def NodSt.resume (hash : List ℤ → ℕ) (perms : List (List ℕ)) (s : NodSt) : Py (List ℕ) :=
  match s.pend with | some c => updateIsoset hash s.isoset c.numbers perms | none => .ok s.isoset

section
variable (hash : List ℤ → ℕ) (perms : List (List ℕ)) (ok : ℕ → ℤ → Bool) (atom : ℤ)

mutual

/-- `next()` on a `gen_add_one_speckle*` generator (ababe/stru/sogen.py:139-151) -/
def pullAdd : ℕ → AddSt → Chain → Option (Py (Option GCell) × AddSt × Chain)
  | 0, _, _ => none
  | f + 1, st, below =>
    if st.done then some (.ok none, st, below)
    else
      match st.cur with
      | some (c, nn :: rest) =>
        if hash nn ∈ st.resumeDb then pullAdd f ⟨some (c, rest), none, st.resumeDb, false⟩ below
        else match GCell.new c.lattice c.positions nn with
          | .error e => some (.error e, ⟨none, none, st.resumeDb, true⟩, below)
          | .ok cell => some (.ok (some cell), ⟨some (c, rest), some (hash nn), st.resumeDb, false⟩, below)
      | _ =>
        match pullGen f below with
        | none => none
        | some (.error e, below') => some (.error e, ⟨none, none, st.resumeDb, true⟩, below')
        | some (.ok none, below') => some (.ok none, ⟨none, none, st.resumeDb, true⟩, below')
        | some (.ok (some c), below') =>
          pullAdd f ⟨some (c, addOneCands ok atom c.numbers), none, st.resumeDb, false⟩ below'

/-- `next()` on a `gen_2nodup_gen` generator (ababe/stru/sogen.py:188-196) -/
def pullNod : ℕ → AddSt → NodSt → Chain → Option (Py (Option GCell) × AddSt × NodSt × Chain)
  | 0, _, _, _ => none
  | f + 1, a, s, below =>
    if s.done then some (.ok none, a, s, below)
    else match s.resume hash perms with
      | .error e => some (.error e, a, ⟨s.isoset, none, true⟩, below)
      | .ok iso =>
        match pullAdd f a below with
        | none => none
        | some (.error e, a', below') => some (.error e, a', ⟨iso, none, true⟩, below')
        | some (.ok none, a', below') => some (.ok none, a', ⟨iso, none, true⟩, below')
        | some (.ok (some c), a', below') =>
          if c.id hash ∈ iso then pullNod f a' ⟨iso, none, false⟩ below'
          else some (.ok (some c), a', ⟨iso, some c, false⟩, below')

/-- `next()` on the iterator `gen`: the initial generator or the inner branch of a `tee` (ababe/stru/sogen.py:206, 217) -/
def pullGen : ℕ → Chain → Option (Py (Option GCell) × Chain)
  | 0, _ => none
  | _ + 1, .base [] => some (.ok none, .base [])
  | _ + 1, .base (c :: cs) => some (.ok (some c), .base cs)
  | f + 1, .level l below =>
    match l.buf[l.genPos]? with
    | some c => some (.ok (some c), .level { l with genPos := l.genPos + 1 } below)
    | none =>
      match pullNod f l.add l.nod below with
      | none => none
      | some (.error e, a, s, below') => some (.error e, .level { l with add := a, nod := s } below')
      | some (.ok none, a, s, below') => some (.ok none, .level { l with add := a, nod := s } below')
      | some (.ok (some c), a, s, below') =>
        some (.ok (some c), .level { l with add := a, nod := s, buf := l.buf ++ [c], genPos := l.genPos + 1 } below')

end

/-- `next()` on the branch `out_gen` of the level `d` steps below the newest one (ababe/stru/sogen.py:217-218) -/
def pullOut (f : ℕ) : ℕ → Chain → Option (Py (Option GCell) × Chain)
  | _, .base items => some (.ok none, .base items)
  | d + 1, .level l below =>
    match pullOut f d below with
    | none => none
    | some (r, below') => some (r, .level l below')
  | 0, .level l below =>
    match l.buf[l.outPos]? with
    | some c => some (.ok (some c), .level { l with outPos := l.outPos + 1 } below)
    | none =>
      match pullNod hash perms ok atom f l.add l.nod below with
      | none => none
      | some (.error e, a, s, below') => some (.error e, .level { l with add := a, nod := s } below')
      | some (.ok none, a, s, below') => some (.ok none, .level { l with add := a, nod := s } below')
      | some (.ok (some c), a, s, below') =>
        some (.ok (some c), .level { l with add := a, nod := s, buf := l.buf ++ [c], outPos := l.outPos + 1 } below')

/-- what the consumer does: ask the outer generator for the next level, or ask level `k` (0 = first yielded) for a
structure -/
inductive Call
  | outer
  | next (k : ℕ)
  deriving DecidableEq

/-- what the consumer sees: a new level, a structure, `StopIteration`, or an exception -/
inductive Seen
  | level
  | item (c : GCell)
  | stop
  | raised (e : PyErr)

/-- number of levels created so far -/
def Chain.depth : Chain → ℕ
  | .base _ => 0
  | .level _ b => b.depth + 1

/-- one call; `total` is the number of iterations of the outer loop (`range(n_init, n)`, ababe/stru/sogen.py:213).
`next k` on a level that does not exist yet cannot be written by a consumer; it is answered by `stop` here. -/
def lazyStep (f total : ℕ) (s : Chain) : Call → Option (Seen × Chain)
  | .outer => if s.depth < total then some (.level, .level Level.fresh s) else some (.stop, s)
  | .next k =>
    if k < s.depth then
      match pullOut hash perms ok atom f (s.depth - 1 - k) s with
      | none => none
      | some (.error e, s') => some (.raised e, s')
      | some (.ok none, s') => some (.stop, s')
      | some (.ok (some c), s') => some (.item c, s')
    else some (.stop, s)

/-- a whole schedule of calls -/
def lazyRun (f total : ℕ) : Chain → List Call → Option (List Seen)
  | _, [] => some []
  | s, c :: cs =>
    match lazyStep hash perms ok atom f total s c with
    | none => none
    | some (o, s') => match lazyRun f total s' cs with
      | none => none
      | some os => some (o :: os)

end

/-- a schedule of calls on `all_speckle_gen_unitary(n, sp)` (ababe/stru/sogen.py:205-218) -/
def OGen.lazyUnitary (hash : List ℤ → ℕ) (g : OGen) (n : ℕ) (sp : Specie) (f : ℕ) (calls : List Call) : Option (List Seen) :=
  lazyRun hash g.perms (fun _ v => sp.Z != v) sp.Z f (n - g.init.getSpeckleNum sp) (.base [g.init]) calls

/-- a schedule of calls on `all_speckle_gen(n, wy, sp)` (ababe/stru/sogen.py:220-230) -/
def OGen.lazyWyckoff (hash : List ℤ → ℕ) (g : OGen) (n : ℕ) (wy : String) (sp : Specie) (f : ℕ) (calls : List Call) :
    Option (List Seen) :=
  lazyRun hash g.perms (fun i v => g.wyckoffs[i]? == some wy && sp.Z != v) sp.Z f (n - g.init.getSpeckleNum sp)
    (.base [g.init]) calls

/-- a schedule of calls on `all_speckle_gen_of_ele(n, ele, sp)` (ababe/stru/sogen.py:232-242) -/
def OGen.lazyOfEle (hash : List ℤ → ℕ) (g : OGen) (n : ℕ) (ele sp : Specie) (f : ℕ) (calls : List Call) :
    Option (List Seen) :=
  lazyRun hash g.perms (fun _ v => v == ele.Z && v != sp.Z) sp.Z f (n - g.init.getSpeckleNum sp) (.base [g.init]) calls

end Verif
