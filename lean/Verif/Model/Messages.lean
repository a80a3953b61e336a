import Verif.Basic.Time

/-!
# Messages: inboxes, `process_messages`, `broadcast`, `received`, `ask`
-/

namespace Verif

/-- A message (soil/events.py:10-19, 22-32). `id` is its identity (`uuid4`), `ask` tells an `Ask` from a `Tell`,
`sender` an agent id or `None`. -/
structure Msg where
  id : Nat
  payload : Nat
  sender : Option Nat
  expiration : Option Time
  ask : Bool
deriving DecidableEq, Repr

/-- `Message.expired` (soil/events.py:18-19). -/
def Msg.expired (m : Msg) (now : Time) : Bool :=
  match m.expiration with
  | none => false
  | some e => decide (e < now)

/-- A value returned by `on_receive`, and its Python truth value: `None`, 0, `False`, the empty string and empty
containers are false. -/
structure ReplyVal where
  v : Nat
  truthy : Bool
deriving DecidableEq, Repr

/-- What `on_receive` does with a message: `S` is everything it can see and change except the agent's own inbox;
`touched = some b` means that it modified the inbox (which is then `b`), for instance by telling itself something. -/
structure HandlerRes (S : Type) where
  /-- `none`: it raised -/
  reply : Option ReplyVal
  state : S
  touched : Option (List Msg)

abbrev Handler (S : Type) := S → List Msg → Msg → HandlerRes S

/-- The result of a call of `process_messages`. `handled` (ghost) lists the messages passed to `on_receive`;
`replies` the values stored in `Ask` messages; `valid` is the returned list, `none` if an exception escapes. -/
structure ProcRes (S : Type) where
  state : S
  inbox : List Msg
  handled : List Msg
  replies : List (Nat × ReplyVal)
  valid : Option (List Msg)

/-- The loop of `process_messages` (soil/agents/evented.py:46-53) over the rest of the messages; the inbox itself does
not change while it runs unless a handler touches it. Python's `deque` raises `RuntimeError` when the iteration goes on
after a modification, even after the last element. -/
def procLoop {S : Type} (on : Handler S) (now : Time) (inbox : List Msg) : List Msg → S → ProcRes S
  | [], s => ⟨s, inbox, [], [], some []⟩
  | m :: ms, s =>
    if m.expired now then procLoop on now inbox ms s
    else
      let r := on s inbox m
      match r.reply with
      | none => ⟨r.state, r.touched.getD inbox, [m], [], none⟩
      | some v =>
        let rep := if m.ask then [(m.id, v)] else []
        match r.touched with
        | some inbox' => ⟨r.state, inbox', [m], rep, none⟩
        | none =>
          let rest := procLoop on now inbox ms r.state
          ⟨rest.state, rest.inbox, m :: rest.handled, rep ++ rest.replies, rest.valid.map (m :: ·)⟩

/-- `EventedAgent.process_messages` (soil/agents/evented.py:44-55). The counter `_processed` is not modelled. -/
def processMessages {S : Type} (on : Handler S) (now : Time) (inbox : List Msg) (s : S) : ProcRes S :=
  let r := procLoop on now inbox inbox s
  match r.valid with
  | none => r
  | some v => { r with inbox := [], valid := some v }

/-- An agent as `broadcast` sees it: identity, the public attributes that `==` compares (`unique_id` among them;
`BaseAgent` inherits `__eq__` from `Mapping`), and its inbox if it has one. -/
structure MAgent where
  ref : Nat
  uid : Nat
  attrs : Nat
  inbox : Option (List Msg)
deriving DecidableEq, Repr

/-- `agent == sender` for a sender that is an agent. -/
def MAgent.pyEq (a b : MAgent) : Bool := a.uid == b.uid && a.attrs == b.attrs

/-- `agent == sender` in `broadcast` (soil/environment.py:415); `sender` may be `None`. -/
def isSender (sender : Option MAgent) (a : MAgent) : Bool :=
  match sender with
  | some s => a.pyEq s
  | none => false

/-- `EventedEnvironment.broadcast` (soil/environment.py:413-432). `filter` is the effect of `**kwargs` on the scheduled
agents; `ids k` is the identity of the message created for the `k`-th of them. -/
def broadcast (agents : List MAgent) (filter : MAgent → Bool) (sender : Option MAgent) (payload : Nat) (now : Time)
    (expiration ttl : Option Time) (ids : Nat → Nat) : List MAgent :=
  let exp := match ttl with
    | none => expiration
    | some t => some (now + t)
  agents.mapIdx (fun k a =>
    if filter a then
      if isSender sender a then a
      else match a.inbox with
        | none => a
        | some b => { a with inbox := some (b ++ [⟨ids k, payload, sender.map (·.uid), exp, false⟩]) }
    else a)

/-- How a wait ends. -/
inductive Wait (α : Type) where
  | returned (v : α)
  | timedOut
  | waiting
deriving DecidableEq, Repr

/-- The deadline of `received` (soil/agents/evented.py:19-20): an expiration of `None` (or 0) means `now + timeout`. -/
def receivedDeadline (expiration : Option Time) (timeout now : Time) : Time :=
  match expiration with
  | none => now + timeout
  | some e => if e = 0 then now + timeout else e

/-- `EventedAgent.received` with `process=False` (soil/agents/evented.py:21-28): each poll is the time of an activation
and the contents of the inbox then. -/
def receivedRaw (deadline : Time) : List (Time × List Msg) → Wait (List Msg)
  | [] => .waiting
  | (now, inbox) :: polls =>
    if now < deadline then
      match inbox with
      | [] => receivedRaw deadline polls
      | m :: ms => .returned (m :: ms)
    else .timedOut

/-- The same with `process=True` (the default): the value returned is the inbox object itself (line 23), which
`process_messages` has just emptied (lines 25, 54). `S` changes between polls in any way, hence it is part of the poll.
The result is what the caller finds in the returned object, and the messages that were handled; `none` when
`process_messages` raised. -/
def receivedDefault {S : Type} (on : Handler S) (deadline : Time) : List (Time × List Msg × S) →
    Wait (Option (List Msg × List Msg))
  | [] => .waiting
  | (now, inbox, s) :: polls =>
    if now < deadline then
      match inbox with
      | [] => receivedDefault on deadline polls
      | m :: ms =>
        let r := processMessages on now (m :: ms) s
        match r.valid with
        | none => .returned none
        | some _ => .returned (some (r.inbox, r.handled))
    else .timedOut

/-- The message that `target.ask(msg)` puts in the inbox of `target` (soil/agents/evented.py:35-36); `asker` is the agent
whose code awaits it. -/
def askMsg (target _asker : Nat) (payload id : Nat) : Msg :=
  { id, payload, sender := some target, expiration := none, ask := true }

/-- The deadline of `ask` (soil/agents/evented.py:37); the parameter `expiration` is ignored. -/
def askDeadline (_expiration timeout : Option Time) (now : Time) : Time :=
  match timeout with
  | none => .inf
  | some t => now + t

/-- The loop of `ask` (soil/agents/evented.py:38-42): each poll is the time of an activation and the reply stored in the
message by then, if any. -/
def askLoop (deadline : Time) : List (Time × Option ReplyVal) → Wait ReplyVal
  | [] => .waiting
  | (now, reply) :: polls =>
    if now < deadline then
      match reply with
      | some r => if r.truthy then .returned r else askLoop deadline polls
      | none => askLoop deadline polls
    else .timedOut

end Verif
