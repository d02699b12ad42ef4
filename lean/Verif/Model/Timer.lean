import Verif.Spec.Timer

/-!
# Model of the timer, c/timer.c (used by `hv` to report the time it needed)

Exact arithmetic.  The answers of the operating system are arbitrary.
-/

set_option autoImplicit false
set_option linter.unusedSectionVars false

namespace Moo

/-- `struct timeval`. -/
structure TimeVal where
  sec : ℤ
  usec : ℤ

/-- What `gettimeofday` and `getrusage` (times of the process in user and in system mode) answer. -/
structure ClockReading where
  tp : TimeVal
  utime : TimeVal
  stime : TimeVal

variable {K : Type} [Field K] [LinearOrder K]

/-- `TIMER_CPUTIME`, c/timer.c:100-103. -/
def cpuTime (r : ClockReading) : K := (r.utime.sec : K) + (r.stime.sec : K) + ((r.utime.usec : K) + (r.stime.usec : K)) * (1 / 1000000)

/-- `TIMER_WALLTIME`, c/timer.c:105-106. -/
def wallTime (r : ClockReading) : K := (r.tp.sec : K) + (r.tp.usec : K) * (1 / 1000000)

/-- The static variables, c/timer.c:110-111 (`res` and `tp` are overwritten before every use). -/
structure TimerVars (K : Type) where
  virtualTime : K
  realTime : K
  stopVirtualTime : K
  stopRealTime : K

/-- `Timer_start`, c/timer.c:124-131. -/
def timerStart (r : ClockReading) (v : TimerVars K) : TimerVars K :=
  { v with realTime := wallTime r, virtualTime := cpuTime r }

/-- `Timer_stop`, c/timer.c:178-185. -/
def timerStop (r : ClockReading) (v : TimerVars K) : TimerVars K :=
  { v with stopRealTime := wallTime r, stopVirtualTime := cpuTime r }

/-- `Timer_continue`, c/timer.c:187-216. -/
def timerContinue (r : ClockReading) (v : TimerVars K) : TimerVars K :=
  let tmpReal := wallTime r - v.stopRealTime
  let tmpVirtual := cpuTime r - v.stopVirtualTime
  { v with
    realTime := if tmpReal > 0 then v.realTime + tmpReal else v.realTime
    virtualTime := if tmpVirtual > 0 then v.virtualTime + tmpVirtual else v.virtualTime }

/-- `Timer_elapsed_virtual`, c/timer.c:137-152. -/
def timerElapsedVirtual (r : ClockReading) (v : TimerVars K) : K :=
  let tmp := cpuTime r - v.virtualTime
  if tmp < 0 then 0 else tmp

/-- `Timer_elapsed_real`, c/timer.c:154-169. -/
def timerElapsedReal (r : ClockReading) (v : TimerVars K) : K :=
  let tmp := wallTime r - v.realTime
  if tmp < 0 then 0 else tmp

/-- `Timer_elapsed`, c/timer.c:171-176; `real`: the argument is `REAL_TIME`. -/
def timerElapsed (real : Bool) (r : ClockReading) (v : TimerVars K) : K :=
  if real then timerElapsedReal r v else timerElapsedVirtual r v

/-- A sequence of calls, each with the answers of the operating system. -/
def timerCalls : List (TimerCall × ClockReading) → TimerVars K → TimerVars K
  | [], v => v
  | (.start, r) :: es, v => timerCalls es (timerStart r v)
  | (.stop, r) :: es, v => timerCalls es (timerStop r v)
  | (.continue_, r) :: es, v => timerCalls es (timerContinue r v)

end Moo
