import Verif.Model.Identity
import Verif.Model.Timed

/-!
# Model of the default interval of a scheduler (soil/time.py:35-40, soil/environment.py:88-102)
-/

namespace Verif

/-- `getattr(model, k)`: the attributes of the object, then those of its class (and the classes it inherits from); `none`: `AttributeError`. -/
def modelAttr (cls inst : Dict String Val) (k : String) : Option Val :=
  match Dict.get? inst k with
  | some v => some v
  | none => Dict.get? cls k

/-- `DiscreteActivation.__init__` (soil/time.py:36-40): the `default_interval` of the new scheduler of a model with the given attributes;
`none` if it raises. -/
def discreteInterval (cls inst : Dict String Val) : Option Val :=
  match modelAttr cls inst "default_interval" with
  | none => some (.num 1)
  | some _ => modelAttr cls inst "interval"

/-- `BaseEnvironment.__init__` (soil/environment.py:88-102) when no schedule is given: the scheduler is made, then the parameters are set
as attributes. Result: the interval of the scheduler and the attributes of the environment; `none` if the constructor raises. -/
def envInterval (ro : List String) (cls inst0 kwargs : Dict String Val) : Option (Val × Dict String Val) :=
  match discreteInterval cls inst0 with
  | none => none
  | some v => (baseEnvConstruct ro inst0 kwargs).map (fun inst => (v, inst))

end Verif
