import Mathlib.Data.List.Basic

/-!
# Equality of stackers

Model of `BaseStacker.__eq__` and of the attribute that a run leaves behind (`maf/stackers/base_stacker.py`). An object is its class,
an identity, and what `dir` lists, with the values of the attributes. Values have an equality (arrays are compared
with `array_equal`, the rest with `!=`); bound methods are equal if they belong to the same object.
-/

namespace Verif.StackEq

variable {X : Type} [DecidableEq X]

/-- The value of an attribute. -/
inductive Attr (X : Type) where
  | val (x : X)
  | method (owner : ℕ)
  deriving DecidableEq

/-- A stacker. -/
structure Obj (X : Type) where
  uid : ℕ
  cls : String
  attrs : List (String × Attr X)

def Obj.get (o : Obj X) (k : String) : Option (Attr X) := (o.attrs.find? fun e => e.1 == k).map Prod.snd

/-- `base_stacker.py:100`: the attributes that are not compared. -/
def skipped (k : String) : Bool := k.startsWith "_" || k == "registry" || k == "run" || k == "next"

/-- `base_stacker.py:84-111`: `__eq__`. -/
def stackerEq (a b : Obj X) : Bool :=
  if a.cls ≠ b.cls then false
  else a.attrs.all fun e => skipped e.1 ||
    match b.get e.1 with
    | none => false
    | some w => decide (e.2 = w)

/-- `base_stacker.py:113-120`: `__ne__`. -/
def stackerNe (a b : Obj X) : Bool := if stackerEq a b then false else true

/-- A new stacker: no stacker calls the `__init__` of its base class, so that it has the attributes it sets
itself (`base_stacker.py:63-79`), those of the class, and its public methods. -/
def make (uid : ℕ) (cls : String) (config : List (String × X)) (methods : List String) : Obj X :=
  ⟨uid, cls, config.map (fun e => (e.1, .val e.2)) ++ methods.map fun k => (k, .method uid)⟩

/-- `base_stacker.py:130-131`: a run sets the types of the columns if they are not set (`floats` is the new list;
`none` is also taken for not set, as `isNone` says). -/
def used (floats : X) (isNone : X → Bool) (o : Obj X) : Obj X :=
  match o.get "cols_added_dtypes" with
  | none => ⟨o.uid, o.cls, o.attrs ++ [("cols_added_dtypes", .val floats)]⟩
  | some (.val x) =>
    if isNone x then
      ⟨o.uid, o.cls, o.attrs.map fun e => if e.1 = "cols_added_dtypes" then (e.1, .val floats) else e⟩
    else o
  | some (.method _) => o

end Verif.StackEq
