import Mathlib.Algebra.Order.Field.Basic

set_option autoImplicit false
set_option linter.unusedSectionVars false

/-! # Specification of the timer (c/timer.c): the time during which it was running -/

namespace Moo

/-- The calls that change the timer. -/
inductive TimerCall where
  | start
  | stop
  | continue_
  deriving DecidableEq

/-- The calls are used as they are meant: the timer is stopped only while it runs and continued only while it is stopped, and it runs at the end. -/
def wellUsed : Bool → List TimerCall → Bool
  | on, [] => on
  | _, .start :: es => wellUsed true es
  | on, .stop :: es => on && wellUsed false es
  | on, .continue_ :: es => !on && wellUsed true es

/-- The time during which the timer was running since it was last started.  `on`: it is running; `last`: the time of the last call; `acc`: the time it ran before
that; the list holds the calls that follow with their times; `now`: the time of the question. -/
def runningTime {K : Type} [Field K] (acc : K) (on : Bool) (last : K) : List (TimerCall × K) → K → K
  | [], now => acc + if on then now - last else 0
  | (.start, t) :: es, now => runningTime 0 true t es now
  | (.stop, t) :: es, now => runningTime (acc + if on then t - last else 0) false t es now
  | (.continue_, t) :: es, now => runningTime (acc + if on then t - last else 0) true t es now

end Moo
