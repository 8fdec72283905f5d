import Verif.Basic
import Verif.Map
import Verif.Ref.Model

/-! # Objects with ids and their containers: `Abstract/Object.h`, `Abstract/Model.h` -/
namespace Vega

/-- The part of `Identifiable<T>` that containers look at (Object.h 40-45); `payload` stands
for everything else in the object. -/
structure Obj where
  type : Nat
  originalId : Int
  id : Int
  payload : Nat
  deriving DecidableEq, Repr

namespace Obj

/-- `isOriginal` (Object.h 52-54). -/
def isOriginal (o : Obj) : Bool := o.originalId ≠ Ref.NO_ID

/-- `bestId` (Object.h 87-93). -/
def bestId (o : Obj) : Int := if o.originalId ≠ Ref.NO_ID then o.originalId else o.id

/-- `getReference` (Object.h 116-120). -/
def ref (o : Obj) : Ref := ⟨o.type, if o.isOriginal then o.originalId else Ref.NO_ID, o.id⟩

end Obj

/-- `Model::Container<T>` (Model.h 211-217). The map of maps by type and original id is
flattened to one map with pairs as keys: the code never looks at an inner map as such. -/
structure Container where
  byId : Map Int Obj
  byOrig : Map (Nat × Int) Obj
  deriving DecidableEq

/-- `ConfigurationParameters::TranslationMode`. -/
inductive TranslationMode where
  | MODE_STRICT | MESH_AT_LEAST | BEST_EFFORT
  deriving DecidableEq, Repr

namespace Container

/-- A fresh container. -/
def empty : Container := ⟨[], []⟩

/-- `find(const Reference<T>&)` (Model.h 594-615). -/
def find (c : Container) (r : Ref) : Outcome (Option Obj) :=
  if r.hasOriginalId then .ok (c.byOrig.find (r.type, r.originalId))
  else if r.hasId then .ok (c.byId.find r.id)
  else .throw

/-- `get(int)` (Model.h 629-637). -/
def get (c : Container) (id : Int) : Option Obj := c.byId.find id

/-- `add` (Model.h 582-592). -/
def add (c : Container) (o : Obj) : Outcome Container := do
  match ← c.find o.ref with
  | some _ => .throw
  | none =>
    .ok ⟨c.byId.set o.id o,
      if o.isOriginal then c.byOrig.set (o.type, o.originalId) o else c.byOrig⟩

/-- `erase` (Model.h 464-469). -/
def erase (c : Container) (r : Ref) : Container :=
  ⟨c.byId.erase r.id,
    if r.hasOriginalId then c.byOrig.erase (r.type, r.originalId) else c.byOrig⟩

/-- `size` (Model.h 248). -/
def size (c : Container) : Nat := c.byId.length

/-- The objects visited by `begin()`..`end()` (Model.h 219-245). -/
def objects (c : Container) : List Obj := c.byId.map (·.2)

/-- `filter(type)` (Model.h 471-480). -/
def filter (c : Container) (t : Nat) : List Obj :=
  (c.byId.filter fun kv => kv.2.type = t).map (·.2)

/-- `contains(type)` (Model.h 493-501). -/
def contains (c : Container) (t : Nat) : Bool := c.byId.any fun kv => kv.2.type = t

/-- `validate` (Model.h 503-530), `valid` being the virtual `validate` of the objects. -/
def validate (c : Container) (mode : TranslationMode) (valid : Obj → Bool) : Bool × Container :=
  let invalid := c.objects.filter fun o => !valid o
  let toBeRemoved := match mode with
    | .MODE_STRICT => []
    | .MESH_AT_LEAST => invalid
    | .BEST_EFFORT => invalid
  (invalid.isEmpty, toBeRemoved.foldl (fun c o => c.erase o.ref) c)

end Container

/-- The static counter and the live objects of one class `T`: original id and id of each
(Object.h 40-43). -/
structure IdWorld where
  autoId : Int
  objs : List (Int × Int)

namespace IdWorld

/-- Program start (Object.h 139). -/
def init : IdWorld := ⟨0, []⟩

/-- The constructor (Object.h 108-110): `id(++auto_id)`. `int` overflow is not modelled. -/
def create (w : IdWorld) (originalId : Int) : IdWorld :=
  ⟨w.autoId + 1, w.objs ++ [(originalId, w.autoId + 1)]⟩

/-- `resetId` (Object.h 103-106) on the k-th object. -/
def reset (w : IdWorld) (k : Nat) : IdWorld :=
  ⟨w.autoId + 1, w.objs.modify k fun _ => (Ref.NO_ID, w.autoId + 1)⟩

/-- `clone` of the k-th object (copy construction) followed by `resetId` on the copy, as in
`Loading::clone`, `LoadSet::clone` and their users. -/
def cloneReset (w : IdWorld) (k : Nat) : IdWorld :=
  if k < w.objs.length then
    ⟨w.autoId + 1, w.objs ++ [(Ref.NO_ID, w.autoId + 1)]⟩
  else w

end IdWorld
end Vega
