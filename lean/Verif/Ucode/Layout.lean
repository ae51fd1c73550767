import Mathlib.Data.List.Basic
/-!
# Field layout of the microcode ROM — `UCodeROM._create_field_layout`

Models `src/sentinel/ucoderom.py` 254-317: the check of the fields declared in the microcode source
against the Amaranth classes in `field_map`, and the `StructLayout` built from them.

Python dictionaries are association lists in insertion order; assigning to a key that is present
keeps its place.  Amaranth's `StructLayout` gives each member the sum of the widths of the members
before it as offset; `unsigned(n)` with negative `n` is an error.  All exceptions are `none`.
-/

namespace Sentinel.Ucode

/-- `ucoderom.py` 254-317. -/
abbrev Name := List Char

/-- `str.upper` (on ASCII identifiers) (`ucoderom.py` 294-317). -/
def upper (n : Name) : Name := n.map Char.toUpper
/-- `str.lower` (on ASCII identifiers) (`ucoderom.py` 294-317). -/
def lower (n : Name) : Name := n.map Char.toLower

/-- A field of the microcode source, as m5meta presents it (`space.fields`): `enum` is empty for a
plain number; a `bool` is the enum false = 0, true = 1 (`ucoderom.py` 258-274). -/
structure UField where
  name : Name
  origin : Nat
  width : Nat
  enum : List (Name × Nat)
  deriving DecidableEq

/-- An Amaranth shape in `field_map`: `unsigned(n)`, or an enum class with its width and its members
in order of definition (`ucoderom.py` 113-140). -/
inductive FShape
  | unsigned (width : Nat)
  | enum (width : Nat) (members : List (Name × Nat))
  deriving DecidableEq

/-- `Shape.cast(c).width` (`ucoderom.py` 284). -/
def FShape.width : FShape → Nat
  | .unsigned w => w
  | .enum w _ => w

/-- The members of an enum class that iteration yields: in Python a member with the value of an
earlier one is an alias and is skipped (`ucoderom.py` 294-317). -/
def canonical : List (Name × Nat) → List Nat → List (Name × Nat)
  | [], _ => []
  | (k, v) :: r, seen => if v ∈ seen then canonical r seen else (k, v) :: canonical r (v :: seen)

/-- `dict[k] = v` (Python; `ucoderom.py` 255-273). -/
def dictSet {α : Type} (d : List (Name × α)) (k : Name) (v : α) : List (Name × α) :=
  match d with
  | [] => [(k, v)]
  | (k', v') :: r => if k' = k then (k, v) :: r else (k', v') :: dictSet r k v

/-- The enum check (`ucoderom.py` 300-305): every name of the source is a member with the same value,
and every member is in the source with the same value. -/
def enumMatches (members src : List (Name × Nat)) : Bool :=
  src.all (fun kv => members.lookup (upper kv.1) = some kv.2) &&
  (canonical members []).all (fun kv => src.lookup (lower kv.1) = some kv.2)

/-- `_check_and_convert_dynamic_shape` (`ucoderom.py` 277-292). -/
def checkShape (fm : List (Name × FShape)) (f : UField) : Option FShape :=
  (fm.lookup f.name).bind fun c => if c.width ≠ f.width then none else some c

/-- `_check_and_convert_dynamic_enum` (`ucoderom.py` 294-319).  A class in `field_map` that is not an
enum has no members: subscripting it is an error. -/
def checkEnum (fm : List (Name × FShape)) (f : UField) : Option FShape :=
  (fm.lookup f.name).bind fun
    | .unsigned _ => none
    | .enum w ms =>
      if enumMatches ms f.enum then if w ≠ f.width then none else some (.enum w ms) else none

/-- The enum m5meta uses for `bool` (`ucoderom.py` 265). -/
def boolEnum : List (Name × Nat) := [(['f', 'a', 'l', 's', 'e'], 0), (['t', 'r', 'u', 'e'], 1)]

/-- `curr_f.enum and curr_f.enum != {"false": 0, "true": 1}` (`ucoderom.py` 265; dictionary equality
ignores the order). -/
def isEnum (f : UField) : Bool :=
  !f.enum.isEmpty && !(f.enum.isPerm boolEnum)

/-- Choice of the check (`ucoderom.py` 263-269). -/
def checkField (fm : List (Name × FShape)) (f : UField) : Option FShape :=
  if isEnum f then checkEnum fm f else checkShape fm f

/-- `_padding_0`; `padding_id` is never incremented (`ucoderom.py` 256, 272). -/
def paddingName : Name := ['_', 'p', 'a', 'd', 'd', 'i', 'n', 'g', '_', '0']

/-- The loop of `_create_field_layout` (`ucoderom.py` 254-275). -/
def layoutLoop (fm : List (Name × FShape)) : List UField → List (Name × FShape) → Option (List (Name × FShape))
  | [], d => some d
  | [f], d => (checkField fm f).map fun c => dictSet d f.name c
  | f :: g :: r, d => (checkField fm f).bind fun c =>
    let d := dictSet d f.name c
    if f.origin + f.width ≠ g.origin then
      if g.origin < f.origin + f.width then none
      else layoutLoop fm (g :: r) (dictSet d paddingName (.unsigned (g.origin - (f.origin + f.width))))
    else layoutLoop fm (g :: r) d

/-- `_create_field_layout` (`ucoderom.py` 254-275). -/
def createLayout (fm : List (Name × FShape)) (fs : List UField) : Option (List (Name × FShape)) :=
  layoutLoop fm fs []

/-- Sum of the widths of all members (Amaranth; `ucoderom.py` 275). -/
def totalWidth : List (Name × FShape) → Nat
  | [] => 0
  | (_, c) :: r => c.width + totalWidth r

/-- Offset and shape of a member of a `StructLayout` (Amaranth; `ucoderom.py` 275 and 190). -/
def member (d : List (Name × FShape)) (k : Name) : Option (Nat × FShape) :=
  match d with
  | [] => none
  | (k', c) :: r => if k' = k then some (0, c) else (member r k).map fun p => (c.width + p.1, p.2)

end Sentinel.Ucode
