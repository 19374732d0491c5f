import Verif.Py.Basic
import Verif.Model.PtData

/-! # Model of ababe/stru/element.py -/

namespace Verif

/-- A `Specie` / `GhostSpecie` object (ababe/stru/element.py:14-30, 58-67).
Simplification: `atom_mass` and `atom_radius` are stored by the code but read nowhere. -/
structure Specie where
  symbol : String
  Z : Int
  deriving DecidableEq, Repr

/-- `Specie(symbol)` (ababe/stru/element.py:16-22): `_pt_db[symbol]` raises `KeyError` for an unknown symbol. -/
def Specie.ofSymbol (s : String) : Py Specie :=
  match ptDb.find? (fun kv => kv.1 == s) with
  | some kv => .ok ⟨s, kv.2⟩
  | none => .error .keyError

/-- `GhostSpecie()` (ababe/stru/element.py:63-67) -/
def Specie.ghost : Specie := ⟨"G", 0⟩

/-- `Specie.from_num(an)` (ababe/stru/element.py:32-39): the list comprehension over `_pt_db.items()` indexed with `[0]`
raises `IndexError` when it is empty. -/
def Specie.fromNum (an : Int) : Py Specie :=
  if an = 0 then .ok Specie.ghost
  else match (ptDb.filter (fun kv => kv.2 == an)).map (·.1) with
    | [] => .error .indexError
    | key :: _ => Specie.ofSymbol key

/-- `Specie.to_name(an)` (ababe/stru/element.py:41-49) -/
def Specie.toName (an : Int) : Py String :=
  if an = 0 then .ok "G"
  else match (ptDb.filter (fun kv => kv.2 == an)).map (·.1) with
    | [] => .error .indexError
    | key :: _ => .ok key

/-- `Specie.__eq__` (ababe/stru/element.py:51-52); both arguments are species here, so `isinstance` holds. -/
def Specie.pyEq (a b : Specie) : Bool := a.Z == b.Z

/-- `Specie.__ne__` (ababe/stru/element.py:54-55) -/
def Specie.pyNe (a b : Specie) : Bool := !(a.pyEq b)

end Verif
