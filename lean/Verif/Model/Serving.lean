import Verif.Model.Asking

/-!
# An agent that keeps waiting for messages (soil/agents/evented.py:16-28), inside the scheduler

One agent runs

    while True:
        try:
            yield from self.received(timeout=…, delay=…)
        except TimedOut:
            pass

and everybody else does anything.
-/

namespace Verif

/-- The rest of the world, with the local variable `expiration` of the call of `received` that is waiting (`none` before the first). Others
do not see it in Python; here they may even change it. -/
structure SrvU (U : Type) where
  u : U
  expiration : Option Time
deriving Repr

/-- The situation: who waits for messages, the arguments of `received`, and everything else. -/
structure Serving (U : Type) where
  others : MailCode (SrvU U)
  server : Nat
  timeout : Time
  delay : Time

/-- Noting the local variable. -/
def SrvU.note {U : Type} (e : Time) (x : SrvU U) : SrvU U := { x with expiration := some e }

/-- From a check of the condition of the loop in `received` (soil/agents/evented.py:19-28) to the next `yield`, for a server. `received`
returns after `process_messages`, or raises `TimedOut`; either way it is called again at once, and computes a new expiration. `fuel`
bounds the number of checks: 0 stands for a loop without end, and an exception of `process_messages` escapes; both are `error`. -/
def Serving.check {U : Type} (S : Serving U) : Nat → Option Time → Mail (SrvU U) → MailProg (SrvU U)
  | 0, _, _ => .done .error []
  | fuel + 1, e, w =>
    if w.now < e.getD (receivedDeadline none S.timeout w.now) then
      match w.inbox S.server with
      | some (_ :: _) => .op (.process S.server) (fun w' ok => bif ok then S.check fuel none w' else .done .error [])
      | _ => .op (.other (SrvU.note (e.getD (receivedDeadline none S.timeout w.now)))) (fun _ _ => .done (.ret (some S.delay)) [])
    else S.check fuel none w

/-- Everybody. -/
def Serving.code {U : Type} (S : Serving U) (fuel : Nat) : MailCode (SrvU U) where
  on := S.others.on
  step r s w := if r = S.server then S.check fuel w.u.expiration w else S.others.step r s w
  shuffle l w := S.others.shuffle l w
  shuffle_perm l w := S.others.shuffle_perm l w

end Verif
