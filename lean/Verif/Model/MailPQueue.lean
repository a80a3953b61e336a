import Verif.Model.Mail
import Verif.Model.PQueue

/-!
# Messages between agents inside `PQueueActivation`

The operations on messages are those of `Model/Mail.lean` (soil/events.py, soil/agents/evented.py, soil/environment.py:412-436), the scheduler is that of
`Model/PQueue.lean` (soil/time.py:43-118).
-/

namespace Verif

/-- User code: `on_receive`, the code of activations, and the second components of the entries of the queue (soil/time.py:70-73: the generator of random
numbers is part of the state of the user, `unique_id` when not shuffling). -/
structure MailPCode (U : Type) where
  on : OnReceive U
  step : Ref → PSched → Mail U → MailProg U
  key : Ref → Mail U → Rat × U

/-- The agents inside `PQueueActivation`: `self.now` is the time of the scheduler. -/
def MailPCode.host {U : Type} (C : MailPCode U) : PHost (Mail U) where
  step r s w := (C.step r s { w with now := s.time }).run C.on { w with now := s.time }
  key r w := ((C.key r w).1, { w with u := (C.key r w).2 })

/-- A step of the scheduler (`fuel`: how many activations are looked at; a step may not end, see C11), or code of the environment between steps, see
`MailCmd.exec`. -/
def MailCmd.pexec {U : Type} (C : MailPCode U) (fuel : Nat) : MailCmd U → PSched × Mail U → PSched × Mail U
  | .step, sw => Cmd.pexec C.host fuel .step sw
  | .code p, (s, w) =>
    let res := p.run C.on { w with now := s.time }
    ((s.applyOps C.host res.2.2 res.2.1).1, (s.applyOps C.host res.2.2 res.2.1).2.1)

/-- A history. -/
def mailPExec {U : Type} (C : MailPCode U) (fuel : Nat) (h : List (MailCmd U)) (sw : PSched × Mail U) : PSched × Mail U :=
  h.foldl (fun sw c => c.pexec C fuel sw) sw

end Verif
