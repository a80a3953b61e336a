import Verif.Spec.Calendar

/-!
# Specification: agents whose replies depend only on their own history
-/

namespace Verif.Spec

/-- A policy: what an agent replies, given its own past events and the current time. -/
abbrev Policy := Ref → List Ev → Time → Reply

/-- Every reply in the log (continuing `past`) is the one the policy prescribes. -/
def Follows (pol : Policy) : List Ev → List Ev → Prop
  | _, [] => True
  | past, .act r t rep :: l =>
    rep = pol r (past.filter (·.ref = r)) t ∧ Follows pol (past ++ [.act r t rep]) l
  | past, .added r t :: l => Follows pol (past ++ [.added r t]) l

instance decFollows (pol : Policy) : (past l : List Ev) → Decidable (Follows pol past l)
  | _, [] => isTrue trivial
  | past, .act r t rep :: l =>
    @instDecidableAnd _ _ _ (decFollows pol (past ++ [.act r t rep]) l)
  | past, .added r t :: l => decFollows pol (past ++ [.added r t]) l

end Verif.Spec
