import Verif.Model.Mail

/-!
# An agent that asks another one (soil/agents/evented.py:33-42), inside the scheduler

One agent runs `reply = yield from target.ask(payload, timeout=…, delay=…)` (or `await`) at its first activation. Everybody else, and the
agent itself afterwards, does anything.
-/

namespace Verif

/-- Where the coroutine of the asker is: before the question, in the loop, or after it with a reply or because of the
deadline. `id` and `deadline` are its local variables `ask` and `expiration`. -/
inductive AskPc where
  | start
  | waiting (id : Nat) (deadline : Time)
  | got (id : Nat) (deadline : Time) (v : ReplyVal)
  | gaveUp (id : Nat) (deadline : Time)
deriving DecidableEq, Repr

/-- The rest of the world, with the coroutine of the asker, and the times at which it has looked (ghost). -/
structure AskU (U : Type) where
  u : U
  pc : AskPc
  polls : List Time
deriving Repr

/-- What the others see: not the local variables of the asker. -/
def Mail.view {U : Type} (w : Mail (AskU U)) : Mail U :=
  { inboxes := w.inboxes, nextId := w.nextId, replies := w.replies, now := w.now, u := w.u.u, log := w.log }

/-- Operations of the others. -/
def MailOp.lift {U : Type} : MailOp U → MailOp (AskU U)
  | .send s => .send s
  | .process dst => .process dst
  | .other f => .other (fun x => { x with u := f x.u })

/-- Code of the others. -/
def MailProg.lift {U : Type} : MailProg U → MailProg (AskU U)
  | .done rep ops => .done rep ops
  | .op o next => .op o.lift (fun w b => (next w.view b).lift)

/-- `on_receive` does not see the local variables of the asker. -/
def liftOn {U : Type} (on : OnReceive U) : OnReceive (AskU U) := fun w dst m =>
  ({ w.u with u := (on w.view dst m).1 }, (on w.view dst m).2)

/-- The situation: who asks whom what, the arguments of `ask`, what the asker does when it has got a reply or when `TimedOut` is
raised, and everything else. -/
structure Asking (U : Type) where
  others : MailCode U
  asker : Ref
  target : Nat
  payload : Nat
  timeout : Option Time
  delay : Time
  answered : ReplyVal → Mail U → MailProg U
  timedOut : Mail U → MailProg U

/-- Noting where the coroutine is. -/
def AskU.note {U : Type} (pc : AskPc) (now : Time) (x : AskU U) : AskU U := { x with pc := pc, polls := x.polls ++ [now] }

/-- One round of the loop (soil/agents/evented.py:38-42), and what comes after it. -/
def Asking.poll {U : Type} (A : Asking U) (id : Nat) (deadline : Time) (w : Mail (AskU U)) : MailProg (AskU U) :=
  if w.now < deadline then
    match Dict.get? w.replies id with
    | some v =>
      if v.truthy then .op (.other (AskU.note (.got id deadline v) w.now)) (fun w' _ => (A.answered v w'.view).lift)
      else .op (.other (AskU.note (.waiting id deadline) w.now)) (fun _ _ => .done (.ret (some A.delay)) [])
    | none => .op (.other (AskU.note (.waiting id deadline) w.now)) (fun _ _ => .done (.ret (some A.delay)) [])
  else .op (.other (AskU.note (.gaveUp id deadline) w.now)) (fun w' _ => (A.timedOut w'.view).lift)

/-- An activation of the asker (soil/agents/evented.py:33-42): the first one appends the question to the inbox of the target and goes into
the loop. After the loop it does anything. -/
def Asking.step {U : Type} (A : Asking U) (s : Sched) (w : Mail (AskU U)) : MailProg (AskU U) :=
  match w.u.pc with
  | .start => .op (.send (.ask A.target A.payload)) (fun w' _ => A.poll w.nextId (askDeadline none A.timeout w.now) w')
  | .waiting id deadline => A.poll id deadline w
  | .got _ _ _ => (A.others.step A.asker s w.view).lift
  | .gaveUp _ _ => (A.others.step A.asker s w.view).lift

/-- Everybody. -/
def Asking.code {U : Type} (A : Asking U) : MailCode (AskU U) where
  on := liftOn A.others.on
  step r s w := if r = A.asker then A.step s w else (A.others.step r s w.view).lift
  shuffle l w := A.others.shuffle l w.view
  shuffle_perm l w := A.others.shuffle_perm l w.view

/-- What happens from the outside. -/
def MailCmd.lift {U : Type} : MailCmd U → MailCmd (AskU U)
  | .step => .step
  | .code p => .code p.lift

/-- The state reached by a history. -/
def askReach {U : Type} (A : Asking U) (iv : Time) (sh : Bool) (evented : List Bool) (u : U) (h : List (MailCmd U)) :
    Sched × Mail (AskU U) :=
  mailExec A.code (h.map MailCmd.lift) (Sched.init iv sh, Mail.start evented ⟨u, .start, []⟩)

end Verif
