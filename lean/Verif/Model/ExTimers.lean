import Verif.Model.Solo

/-!
# The example agents that choose their own timeouts

examples/custom_timeouts/custom_timeouts_sim.py and examples/random_delays/random_delays_sim.py.
The calls of `self.log`/`self.info` are left out (they only write to the log, see C112).
-/

namespace Verif

/-- The state `counting` of `Fibonacci` (examples/custom_timeouts/custom_timeouts_sim.py:8-13). -/
def fibState : StateDef := ⟨"counting", true, 1⟩

/-- The class `Fibonacci` (examples/custom_timeouts/custom_timeouts_sim.py:4-13), a subclass of `FSM`. -/
def fibClass : FsmClass := mkFsm [fsmRoot 0] [fibState]

/-- The body of `counting` (examples/custom_timeouts/custom_timeouts_sim.py:10-13); the attribute is `prev`
(initially 1, line 6). `max([self.now, self["prev"]])`. Function 0 is `FSM.dead`
(soil/agents/fsm.py:173-175). -/
def fibCode (fn : Nat) (prev now : Time) : Val × Time :=
  if fn = 1 then (.delay prev, max now prev) else (.num .inf, prev)

/-- `Fibonacci.step`. -/
def fibBeh : Option StateDef × Time → Time → Reply × (Option StateDef × Time) := fsmBeh fibClass fibCode

/-- The state `odds` of `Odds` (examples/custom_timeouts/custom_timeouts_sim.py:20-23). -/
def oddState : StateDef := ⟨"odds", true, 1⟩

/-- The class `Odds` (examples/custom_timeouts/custom_timeouts_sim.py:17-23). -/
def oddClass : FsmClass := mkFsm [fsmRoot 0] [oddState]

/-- `now % 2` of Python numbers; `inf % 2` is NaN, modelled as `inf` (never reached). -/
def mod2 : Time → Time
  | .fin q => .fin (q - 2 * (q / 2).floor)
  | .inf => .inf

/-- The body of `odds` (examples/custom_timeouts/custom_timeouts_sim.py:21-23). -/
def oddCode (fn : Nat) (a : Unit) (now : Time) : Val × Unit :=
  if fn = 1 then (.delay (1 + mod2 now), a) else (.num .inf, a)

/-- `Odds.step`. -/
def oddBeh : Option StateDef × Unit → Time → Reply × (Option StateDef × Unit) := fsmBeh oddClass oddCode

/-- The state `ping` of `MyAgent` (examples/random_delays/random_delays_sim.py:14-18). -/
def pingState : StateDef := ⟨"ping", true, 1⟩

/-- The state `pong` of `MyAgent` (examples/random_delays/random_delays_sim.py:20-27). -/
def pongState : StateDef := ⟨"pong", false, 2⟩

/-- The inherited state `dead` (soil/agents/fsm.py:173-175). -/
def deadState : StateDef := ⟨"dead", false, 0⟩

/-- The class `MyAgent` (examples/random_delays/random_delays_sim.py:7-27). -/
def pongClass : FsmClass := mkFsm [fsmRoot 0] [pingState, pongState]

/-- What `MyAgent` uses: `max_pongs` (2, line 12), the values `expovariate` is going to return (any stream;
a private one: the generator is shared in the code, but any values are allowed), `alive`, and two ghost
counters of the pings and pongs it did. -/
structure PongAttrs where
  maxPongs : Int
  draws : Nat → Rat
  used : Nat
  alive : Bool
  pings : Nat
  pongs : Nat

/-- The bodies of `ping` and `pong` (examples/random_delays/random_delays_sim.py:16-18, 22-27).
`self.pong.delay(d)` is the pair of the state and the delay (soil/agents/fsm.py:50-51); `self.die()` is the
pair of the state `dead` and an infinite delay (soil/agents/fsm.py:169-171). -/
def pongCode (fn : Nat) (a : PongAttrs) (_now : Time) : Val × PongAttrs :=
  if fn = 1 then
    (.pair (.state pongState) (.delay (.fin (a.draws a.used))),
      { a with used := a.used + 1, pings := a.pings + 1 })
  else if fn = 2 then
    let b := { a with maxPongs := a.maxPongs - 1, pongs := a.pongs + 1 }
    if b.maxPongs < 1 then (.pair (.state deadState) (.delay .inf), { b with alive := false })
    else (.delay (.fin (b.draws b.used)), { b with used := b.used + 1 })
  else (.num .inf, a)

/-- `MyAgent.step`. (`_check_alive` is left out: after `die` it is never stepped again.) -/
def pongBeh : Option StateDef × PongAttrs → Time → Reply × (Option StateDef × PongAttrs) :=
  fsmBeh pongClass pongCode

/-! ### The environment of the example -/

/-- The user code of `TimeoutsEnv` (examples/custom_timeouts/custom_timeouts_sim.py:30-34): functions 1 and 2
are the states `counting` and `odds`; the user state is the attribute `prev` of the first agent. -/
def timeoutsCode : UserCode Time Unit where
  run := fun fn _ _ s w =>
    if fn = 1 then let r := fibCode 1 w.u s.time; (.ret r.1, [], r.2)
    else if fn = 2 then (.ret (oddCode 1 () s.time).1, [], w.u)
    else (.ret (.num .inf), [], w.u)
  pf := fun _ => none
  shuffle := fun l w => (l.reverse, w)
  shuffle_perm := fun l _ => l.reverse_perm
  shuffle_agents := fun _ _ => ⟨rfl, rfl⟩

/-- The world after `TimeoutsEnv.init`: agent 0 is a `Fibonacci`, agent 1 an `Odds`. -/
def timeoutsWorld : AWorld Time Unit :=
  ⟨[AgentRec.new (.fsm fibClass), AgentRec.new (.fsm (mkFsm [fsmRoot 0] [⟨"odds", true, 2⟩]))], 1, []⟩

/-- `TimeoutsEnv.init` and `n` steps. -/
def timeoutsHist (n : Nat) : List (Cmd (AWorld Time Unit)) :=
  [.op (.add 0 none), .op (.add 1 none)] ++ List.replicate n .step

end Verif
