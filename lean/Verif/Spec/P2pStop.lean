import Verif.Model.P2pStop

/-! # Specification of the stop of a point-to-point device -/

namespace Verif.P2p.Stop

/-- States that some sequence of events leads to -/
def Reach (c : Cfg) (s : St) : Prop := ∃ es, run c St.init es = .ok s

/-- The order of the states -/
def Fw.rank : Fw → Nat
  | .first => 0
  | .steady => 1
  | .diss => 2
  | .nop => 3

/-- Requests for an irregular call that are on their way: not yet due, or due and not yet processed -/
def outstanding (s : St) : List Report :=
  s.irr ++ s.jobs.filterMap fun j => match j with
    | .irr r _ => some r
    | .other => none

/-- 1 if the event is an irregular call of the firmware -/
def isCall : Ev → List Job → Nat
  | .work .., .irr _ _ :: _ => 1
  | _, _ => 0

/-- Irregular calls of the firmware in a sequence of events -/
def calls (c : Cfg) : St → List Ev → Nat
  | _, [] => 0
  | s, e :: es =>
    isCall e s.jobs +
    match step c s e with
    | .ok s' => calls c s' es
    | _ => 0

/-- The main thread is past the wait for the firmware -/
def Main.past : Main → Prop
  | .passed | .closed | .serverStopped | .done => True
  | _ => False

/-- Why the program can end with a failed assertion in a state: the job queue is full, or an FT that is not shutting down is called for its beacon
without any delay, or cannot send it -/
inductive Fails (c : Cfg) (s : St) : Ev → Prop
  | full (e) (perm : s.permeable = true) (h : c.cap ≤ s.jobs.length) : Fails c s e
  | onTime (r : Report) (js : List Job) (next rx : Int) (b : Bool) (n : Nat) (k : c.kind = .ft) (f : s.fw = .steady) (m : s.shutting = false)
      (j : s.jobs = .irr r r.time :: js) : Fails c s (.work next rx b n)
  | beacon (r : Report) (t : Int) (js : List Job) (next rx : Int) (n : Nat) (k : c.kind = .ft) (f : s.fw = .steady) (m : s.shutting = false)
      (j : s.jobs = .irr r t :: js) : Fails c s (.work next rx false n)

/-- An infinite execution in which no thread is stopped for ever: streaming starts and the queue is made permeable, time passes, synchronization
looks for due reports, workers take jobs and the main thread runs again and again. Nothing else is assumed of the order. -/
structure Fair (c : Cfg) (s : Nat → St) (e : Nat → Ev) : Prop where
  init : s 0 = St.init
  next : ∀ n, step c (s n) (e n) = .ok (s (n + 1))
  start : ∃ n t0, e n = .start t0
  permeate : ∃ n, (s n).started = true ∧ e n = .permeate
  time : ∀ (t : Int) (n : Nat), ∃ m, n ≤ m ∧ t ≤ (s m).now
  due : ∀ n, ∃ m, n ≤ m ∧ e m = .due
  work : ∀ n, ∃ m next rx b k, n ≤ m ∧ e m = .work next rx b k
  check : ∀ n, ∃ m, n ≤ m ∧ e m = .check
  close : ∀ n, ∃ m, n ≤ m ∧ e m = .close

end Verif.P2p.Stop
