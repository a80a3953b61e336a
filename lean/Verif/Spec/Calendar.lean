import Verif.Basic.Events

/-!
# Specification: an event calendar

What a user of a discrete-event scheduler expects, stated only in terms of the observable
log (who was added when, who was activated when and what it replied).  Nothing here
mentions queues, buckets or heaps.

The calendar is the list of pending wake-ups, oldest request first.
-/

namespace Verif.Spec

/-- The delay an agent effectively asks for: `None` and `0` mean the default interval. -/
def effDelay (interval : Time) (d : Option Time) : Time :=
  match d with
  | none => interval
  | some x => if x = 0 then interval else x

/-- When an agent that was activated at `t` and replied `rep` wakes up next (if ever). -/
def nextWake (interval t : Time) : Reply → Option Time
  | .ret d => if t + effDelay interval d = .inf then none else some (t + effDelay interval d)
  | .dead => none
  | .error => none

/-- A calendar: pending `(agent, time)` wake-ups, oldest request first. -/
abbrev Cal := List (Ref × Time)

/-- Effect of one observable event on the calendar. -/
def calStep (interval : Time) (c : Cal) : Ev → Cal
  | .added r t => c ++ [(r, t)]
  | .act r t rep => c.erase (r, t) ++ ((nextWake interval t rep).map (r, ·)).toList

/-- The calendar after a log. -/
def cal (interval : Time) (log : List Ev) : Cal := log.foldl (calStep interval) []

/-- Agents that have a pending wake-up at `t`, oldest request first. -/
def dueAt (c : Cal) (t : Time) : List Ref := (c.filter (·.2 = t)).map (·.1)

/-- An event is admissible in a calendar: nothing earlier is pending and an activation
answers a pending wake-up for exactly that time. -/
def admissible (c : Cal) : Ev → Prop
  | .added _ t => ∀ p ∈ c, t ≤ p.2
  | .act r t _ => (r, t) ∈ c ∧ ∀ p ∈ c, t ≤ p.2

/-- Every event of the log was admissible when it happened. -/
def Legal (interval : Time) (log : List Ev) : Prop :=
  ∀ pre e post, log = pre ++ e :: post → admissible (cal interval pre) e

/-- Times in the log never decrease. -/
def Chronological (log : List Ev) : Prop := log.Pairwise (fun a b => a.time ≤ b.time)

/-- The agents behave: no reply is an unexpected exception or a negative delay. -/
def GoodReply : Reply → Prop
  | .ret (some d) => 0 ≤ d
  | .ret none => True
  | .dead => True
  | .error => False

instance : DecidablePred GoodReply
  | .ret (some d) => inferInstanceAs (Decidable (0 ≤ d))
  | .ret none => isTrue trivial
  | .dead => isTrue trivial
  | .error => isFalse (fun h => h)

def GoodEv : Ev → Prop
  | .act _ _ rep => GoodReply rep
  | .added _ _ => True

instance : DecidablePred GoodEv
  | .act _ _ rep => inferInstanceAs (Decidable (GoodReply rep))
  | .added _ _ => isTrue trivial

/-- Every reply in the log is good. -/
def GoodLog (log : List Ev) : Prop := ∀ e ∈ log, GoodEv e

instance (log : List Ev) : Decidable (GoodLog log) :=
  inferInstanceAs (Decidable (∀ e ∈ log, GoodEv e))

/-- The time line of one agent according to its own requests: `due` is its pending wake-up.
It is added (once) when it has no pending wake-up and is then due at once; it acts exactly
when due, and its reply determines when it is due next. -/
inductive Timeline (interval : Time) : Option Time → List Ev → Option Time → Prop
  | nil (due) : Timeline interval due [] due
  | add {r t l due'} : Timeline interval (some t) l due' →
      Timeline interval none (.added r t :: l) due'
  | act {r t rep l due'} : Timeline interval (nextWake interval t rep) l due' →
      Timeline interval (some t) (.act r t rep :: l) due'

end Verif.Spec
