import Verif.Model.Timed
import Verif.Model.Messages
import Verif.Basic.Dict

/-!
# Agents that exchange messages, inside the scheduler

`Messages` models one call of each function. Here is the whole system: any number of agents with inboxes
(soil/agents/evented.py), an environment (soil/environment.py:412-432), arbitrary user code, and the scheduler.
-/

namespace Verif

/-- What has happened to messages (ghost state). -/
inductive MailEv where
  /-- appended to the inbox of `dst` -/
  | sent (dst : Nat) (m : Msg) (at_ : Time)
  /-- handed to `on_receive` of `dst`, with what it returned (`none`: it raised) -/
  | handled (dst : Nat) (m : Msg) (at_ : Time) (r : Option ReplyVal)
  /-- passed over by `process_messages` of `dst` because it had expired -/
  | expired (dst : Nat) (m : Msg) (at_ : Time)
  /-- an exception has escaped from `process_messages` of `dst` -/
  | failed (dst : Nat) (at_ : Time)
deriving DecidableEq, Repr

/-- The agents by their numbers, with their inboxes (`none`: not an `EventedAgent`, soil/agents/evented.py:9-12), the replies stored
in the messages, by identity (`Ask.reply`, soil/events.py:26-27), the clock, and everything else (`u`). Identities (`uuid4`,
soil/events.py:16) are taken to be different from each other: they are counted. The counter `_processed` is not modelled. -/
structure Mail (U : Type) where
  inboxes : List (Option (List Msg))
  nextId : Nat
  replies : Dict Nat ReplyVal
  now : Time
  u : U
  log : List MailEv
deriving Repr

/-- Nothing has been sent. `evented` says which agents have an inbox. -/
def Mail.start {U : Type} (evented : List Bool) (u : U) : Mail U :=
  ⟨evented.map (fun b => if b then some [] else none), 0, [], 0, u, []⟩

/-- The inbox of an agent. -/
def Mail.inbox {U : Type} (w : Mail U) (r : Nat) : Option (List Msg) :=
  match w.inboxes[r]? with
  | some b => b
  | none => none

/-- `agent._inbox.append(…)` (soil/agents/evented.py:31, 36; soil/environment.py:426-432). Without inbox nothing is appended: `tell` and
`ask` do not exist, and `broadcast` goes on with the next agent. -/
def Mail.deliver {U : Type} (w : Mail U) (dst : Nat) (mk : Nat → Msg) : Mail U :=
  match w.inbox dst with
  | none => w
  | some b =>
    { w with
      inboxes := w.inboxes.set dst (some (b ++ [mk w.nextId]))
      nextId := w.nextId + 1
      log := w.log ++ [.sent dst (mk w.nextId) w.now] }

/-- Ways to send a message. -/
inductive Send where
  /-- `dst.tell(payload, sender)` (soil/agents/evented.py:30-31) -/
  | tell (dst payload : Nat) (sender : Option Nat)
  /-- the beginning of `dst.ask(payload)` (soil/agents/evented.py:35-36); the sender is `self`, i.e. `dst` -/
  | ask (dst payload : Nat)
  /-- `env.broadcast(payload, sender, expiration, ttl, …)` (soil/environment.py:413-432); `targets` are the agents that `get_agents`
  returns without those equal to the sender -/
  | broadcast (targets : List Nat) (payload : Nat) (sender : Option Nat) (expiration ttl : Option Time)
deriving DecidableEq, Repr

/-- The expiration given to the messages of a broadcast (soil/environment.py:430). -/
def castExpiration (now : Time) (expiration ttl : Option Time) : Option Time :=
  match ttl with
  | none => expiration
  | some t => some (now + t)

/-- Sending. -/
def Send.exec {U : Type} (w : Mail U) : Send → Mail U
  | .tell dst payload sender => w.deliver dst (fun id => ⟨id, payload, sender, none, false⟩)
  | .ask dst payload => w.deliver dst (fun id => ⟨id, payload, some dst, none, true⟩)
  | .broadcast targets payload sender expiration ttl =>
    targets.foldl (fun w dst => w.deliver dst (fun id => ⟨id, payload, sender, castExpiration w.now expiration ttl, false⟩)) w

/-- `on_receive` of agent `dst` for a message: what it does to the rest of the world, the messages it sends, and what it returns
(`none`: it raises, after having sent them). It does not call `process_messages`. -/
abbrev OnReceive (U : Type) := Mail U → Nat → Msg → U × List Send × Option ReplyVal

/-- The effect of `on_receive`, noted in the log. -/
def Mail.handle {U : Type} (on : OnReceive U) (w : Mail U) (dst : Nat) (m : Msg) : Mail U :=
  (on w dst m).2.1.foldl Send.exec { w with u := (on w dst m).1, log := w.log ++ [.handled dst m w.now (on w dst m).2.2] }

/-- `if isinstance(msg, Ask): msg.reply = reply` (soil/agents/evented.py:52-53). -/
def Mail.reply {U : Type} (w : Mail U) (m : Msg) (v : ReplyVal) : Mail U :=
  if m.ask then { w with replies := Dict.set w.replies m.id v } else w

/-- The loop of `process_messages` (soil/agents/evented.py:46-53) over the rest of the messages of `dst`; `size` is the length of the
inbox at the beginning. If `on_receive` has appended something to the inbox the iteration raises `RuntimeError`. Result: the
world, and whether the loop has ended normally. -/
def procMail {U : Type} (on : OnReceive U) (dst size : Nat) : List Msg → Mail U → Mail U × Bool
  | [], w => (w, true)
  | m :: ms, w =>
    if m.expired w.now then procMail on dst size ms { w with log := w.log ++ [.expired dst m w.now] }
    else match (on w dst m).2.2 with
      | none => (w.handle on dst m, false)
      | some v =>
        let w' := (w.handle on dst m).reply m v
        if ((w'.inbox dst).getD []).length = size then procMail on dst size ms w' else (w', false)

/-- `EventedAgent.process_messages` of `dst` (soil/agents/evented.py:44-55). -/
def Mail.process {U : Type} (on : OnReceive U) (w : Mail U) (dst : Nat) : Mail U × Bool :=
  match w.inbox dst with
  | none => (w, false)
  | some b =>
    let r := procMail on dst b.length b w
    if r.2 then ({ r.1 with inboxes := r.1.inboxes.set dst (some []) }, true)
    else ({ r.1 with log := r.1.log ++ [.failed dst r.1.now] }, false)

/-- What the code of agents does. -/
inductive MailOp (U : Type) where
  | send (s : Send)
  | process (dst : Nat)
  | other (f : U → U)

/-- One operation; the Boolean says that no exception has escaped from `process_messages`. -/
def MailOp.exec {U : Type} (on : OnReceive U) (w : Mail U) : MailOp U → Mail U × Bool
  | .send s => (s.exec w, true)
  | .process dst => w.process on dst
  | .other f => ({ w with u := f w.u }, true)

/-- The code of one activation: operations, each depending on everything that has happened so far (including whether
`process_messages` raised), and in the end what the agent tells the scheduler and does to it. -/
inductive MailProg (U : Type) where
  | done (rep : Reply) (ops : List SOp)
  | op (o : MailOp U) (next : Mail U → Bool → MailProg U)

/-- Running the code of one activation. -/
def MailProg.run {U : Type} (on : OnReceive U) : MailProg U → Mail U → Reply × List SOp × Mail U
  | .done rep ops, w => (rep, ops, w)
  | .op o next, w => (next (o.exec on w).1 (o.exec on w).2).run on (o.exec on w).1

/-- User code: `on_receive`, the code of activations, and the shuffles. -/
structure MailCode (U : Type) where
  on : OnReceive U
  step : Ref → Sched → Mail U → MailProg U
  shuffle : List Ref → Mail U → List Ref
  shuffle_perm : ∀ l w, (shuffle l w).Perm l

/-- The agents inside `TimedActivation`: `self.now` is the time of the scheduler. -/
def MailCode.host {U : Type} (C : MailCode U) : Host (Mail U) where
  step r s w := (C.step r s { w with now := s.time }).run C.on { w with now := s.time }
  shuffle l w := (C.shuffle l w, w)
  shuffle_perm := C.shuffle_perm

/-- What happens from the outside: a step of the scheduler, or code of the environment between steps. -/
inductive MailCmd (U : Type) where
  | step
  | code (p : MailProg U)

/-- One of them. What the code of the environment returns is ignored. -/
def MailCmd.exec {U : Type} (C : MailCode U) : MailCmd U → Sched × Mail U → Sched × Mail U
  | .step, sw => Cmd.exec C.host .step sw
  | .code p, (s, w) =>
    let res := p.run C.on { w with now := s.time }
    (s.applyOps res.2.1, res.2.2)

/-- A history. -/
def mailExec {U : Type} (C : MailCode U) (h : List (MailCmd U)) (sw : Sched × Mail U) : Sched × Mail U :=
  h.foldl (fun sw c => c.exec C sw) sw

end Verif
