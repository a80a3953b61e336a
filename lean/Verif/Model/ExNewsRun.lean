import Verif.Model.ExNews
import Verif.Model.Random

/-!
# The runs of the news example (examples/newsspread/newsspread_sim.py:85-133)
-/

namespace Verif

/-- The ratios of the three kinds of viewers in a run (examples/newsspread/newsspread_sim.py:108, 120-122): the wise ones are the rest. Rational
numbers instead of floats. -/
def newsRatios (r1 r2 : Rat) : List Rat := [r1, r2, 1 - r1 - r2]

/-- The kinds of the viewers that `populate_network` puts on the nodes (examples/newsspread/newsspread_sim.py:93-95, soil/environment.py:390-402):
`random.choices` with the ratios as weights, one draw for each node; `none`: an exception. -/
def newsKinds (r1 r2 : Rat) (draws : List Rat) : Option (List ViewerKind) :=
  choices [.dumb, .herd, .wise] (newsRatios r1 r2) draws

/-- The pairs of ratios of the example (examples/newsspread/newsspread_sim.py:108). -/
def newsPairs : List (Rat × Rat) := [0, 1 / 2, 1].flatMap (fun r1 => [0, 1 / 2, 1].map (fun r2 => (r1, r2)))

end Verif
