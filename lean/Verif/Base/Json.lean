import Verif.Base.Dict
import Mathlib.Data.Rat.Defs

/-!
# JSON-like Python values

Values that `json.dump` and `json.load` exchange: numbers (exact rationals), strings, booleans,
`None`, lists and string-keyed dictionaries. The text format itself is not modelled.
-/
namespace Verif

/-- A JSON value. -/
inductive J where
  | num (q : ℚ)
  | str (s : String)
  | bool (b : Bool)
  | null
  | arr (l : List J)
  | obj (l : List (String × J))

namespace J

/-- `obj.get(key)`: `none` when the key is absent or the value is not a dictionary. -/
def get? : J → String → Option J
  | .obj l, k => Dict.get? l k
  | _, _ => none

/-- A number. -/
def num? : J → Option ℚ
  | .num q => some q
  | _ => none

/-- A string. -/
def str? : J → Option String
  | .str s => some s
  | _ => none

/-- `obj[key]` used as a number (`none`: `KeyError` or `TypeError`). -/
def reqNum (o : J) (k : String) : Option ℚ :=
  match o.get? k with
  | some v => v.num?
  | none => none

/-- `obj.get(key, default)` used as a number. -/
def optNum (o : J) (k : String) (d : ℚ) : Option ℚ :=
  match o.get? k with
  | some v => v.num?
  | none => some d

/-- A list of numbers. -/
def nums? : J → Option (List ℚ)
  | .arr l => l.mapM num?
  | _ => none

/-- The list of numbers as JSON. -/
def ofNums (l : List ℚ) : J := .arr (l.map .num)

theorem nums?_ofNums (l : List ℚ) : (ofNums l).nums? = some l := by
  unfold ofNums nums?
  induction l with
  | nil => rfl
  | cons a l ih =>
    simp only [List.map_cons, List.mapM_cons, num?] at ih ⊢
    simp only [ih]; rfl

end J
end Verif
