import Verif.Model.Timer
import Mathlib.Tactic.Linarith
import Mathlib.Tactic.Ring
import Mathlib.Tactic.NormNum
import Mathlib.Data.Rat.Cast.Order

set_option autoImplicit false
set_option linter.unusedSectionVars false

/-!
# C117: what the timer measures

`clock real r` is the real time or the time of the process at a reading `r` of the clocks.
-/

namespace Moo

variable {K : Type} [Field K] [LinearOrder K] [IsStrictOrderedRing K]

/-- The time in seconds. -/
def seconds (t : TimeVal) : K := ((1000000 * t.sec + t.usec : ℤ) : K) / 1000000

/-- The time on the clock asked for: the real time, or the time of the process in user and system mode together. -/
def clock (real : Bool) (r : ClockReading) : K := if real then seconds r.tp else seconds r.utime + seconds r.stime

/-- The variables that belong to the clock. -/
def clockStart (real : Bool) (v : TimerVars K) : K := if real then v.realTime else v.virtualTime
def clockStop (real : Bool) (v : TimerVars K) : K := if real then v.stopRealTime else v.stopVirtualTime

theorem wallTime_eq (r : ClockReading) : (wallTime r : K) = clock true r := by
  have h : (1000000 : K) ≠ 0 := by norm_num
  simp only [wallTime, clock, seconds, if_true]
  push_cast
  rw [add_div, mul_div_cancel_left₀ _ h]
  ring

theorem cpuTime_eq (r : ClockReading) : (cpuTime r : K) = clock false r := by
  have h : (1000000 : K) ≠ 0 := by norm_num
  simp only [cpuTime, clock, seconds, Bool.false_eq_true, if_false]
  push_cast
  rw [add_div, add_div, mul_div_cancel_left₀ _ h, mul_div_cancel_left₀ _ h]
  ring

theorem timerElapsed_eq (real : Bool) (r : ClockReading) (v : TimerVars K) :
    timerElapsed real r v = if clock real r - clockStart real v < 0 then 0 else clock real r - clockStart real v := by
  cases real
  · rw [← cpuTime_eq]; rfl
  · rw [← wallTime_eq]; rfl

theorem clockStart_start (real : Bool) (r : ClockReading) (v : TimerVars K) : clockStart real (timerStart r v) = clock real r := by
  cases real
  · rw [← cpuTime_eq]; rfl
  · rw [← wallTime_eq]; rfl

theorem clockStart_stop (real : Bool) (r : ClockReading) (v : TimerVars K) :
    clockStart real (timerStop r v) = clockStart real v ∧ clockStop real (timerStop r v) = clock real r := by
  cases real
  · rw [← cpuTime_eq]; exact ⟨rfl, rfl⟩
  · rw [← wallTime_eq]; exact ⟨rfl, rfl⟩

theorem clockStart_continue (real : Bool) (r : ClockReading) (v : TimerVars K) :
    clockStart real (timerContinue r v) =
      if clock real r - clockStop real v > 0 then clockStart real v + (clock real r - clockStop real v) else clockStart real v := by
  cases real
  · rw [← cpuTime_eq]; rfl
  · rw [← wallTime_eq]; rfl

/-- The calls with the times on the clock. -/
def timed (real : Bool) (es : List (TimerCall × ClockReading)) : List (TimerCall × K) := es.map (fun e => (e.1, clock real e.2))

/-- The invariant: the start is set back so that the time before the last call counts as the time run until then. -/
theorem timer_invariant (real : Bool) (now : ClockReading) : ∀ (es : List (TimerCall × ClockReading)) (v : TimerVars K) (on : Bool) (last acc : K),
    wellUsed on (es.map Prod.fst) = true → 0 ≤ acc → last - clockStart real v = acc → (on = false → clockStop real v = last) →
    (last :: (es.map (fun e => (clock real e.2 : K)) ++ [clock real now])).Pairwise (· ≤ ·) →
    timerElapsed real now (timerCalls es v) = runningTime acc on last (timed real es) (clock real now) := by
  intro es
  induction es with
  | nil =>
    intro v on last acc hw h0 hl hoff hp
    have hon : on = true := by simpa [wellUsed] using hw
    subst hon
    simp only [List.map_nil, List.nil_append, List.pairwise_cons, List.mem_singleton, forall_eq] at hp
    simp only [timerCalls, timed, List.map_nil, runningTime, if_true]
    rw [timerElapsed_eq, if_neg (by linarith [hp.1])]
    linarith
  | cons e es ih =>
    intro v on last acc hw h0 hl hoff hp
    obtain ⟨c, r⟩ := e
    rw [List.map_cons, List.cons_append, List.pairwise_cons] at hp
    have hle : last ≤ clock real r := hp.1 _ (by simp)
    cases c with
    | start =>
      simp only [List.map_cons, wellUsed] at hw
      simp only [timerCalls, timed, List.map_cons, runningTime]
      refine ih _ true _ 0 hw le_rfl ?_ (by simp) hp.2
      rw [clockStart_start]; ring
    | stop =>
      simp only [List.map_cons, wellUsed, Bool.and_eq_true] at hw
      obtain ⟨rfl, hw⟩ := hw
      simp only [timerCalls, timed, List.map_cons, runningTime, if_true]
      refine ih _ false _ _ hw (by linarith) ?_ (fun _ => (clockStart_stop real r v).2) hp.2
      rw [(clockStart_stop real r v).1]; linarith
    | continue_ =>
      simp only [List.map_cons, wellUsed, Bool.and_eq_true, Bool.not_eq_true'] at hw
      obtain ⟨rfl, hw⟩ := hw
      simp only [timerCalls, timed, List.map_cons, runningTime, Bool.false_eq_true, if_false, add_zero]
      refine ih _ true _ _ hw h0 ?_ (by simp) hp.2
      rw [clockStart_continue, hoff rfl]
      split_ifs with h
      · linarith
      · linarith

/-- **C117.** If the clock does not go backwards and the timer is stopped only while it runs and continued only while it is stopped, the time reported is the time during
which the timer was running since it was last started, whatever was called before. -/
theorem C117_elapsed (real : Bool) (v : TimerVars K) (first now : ClockReading) (es : List (TimerCall × ClockReading))
    (hw : wellUsed true (es.map Prod.fst) = true)
    (hclock : ((first :: es.map Prod.snd ++ [now]).map (clock real : ClockReading → K)).Pairwise (· ≤ ·)) :
    timerElapsed real now (timerCalls ((.start, first) :: es) v) = runningTime 0 true (clock real first) (timed real es) (clock real now) := by
  simp only [timerCalls]
  refine timer_invariant real now es _ true _ 0 hw le_rfl ?_ (by simp) ?_
  · rw [clockStart_start]; ring
  · simpa [Function.comp_def] using hclock

/-- **C117.** As the timer is used by `hv`, it reports the difference of the times. -/
theorem C117_difference (real : Bool) (v : TimerVars K) (first now : ClockReading) (h : (clock real first : K) ≤ clock real now) :
    timerElapsed real now (timerCalls [(.start, first)] v) = (clock real now : K) - clock real first := by
  rw [C117_elapsed real v first now [] rfl (by simpa using h)]
  simp [runningTime, timed]

/-- **C117.** The time reported is never negative, whatever was called and whatever the clocks say. -/
theorem C117_nonneg (real : Bool) (now : ClockReading) (v : TimerVars K) : 0 ≤ timerElapsed real now v := by
  rw [timerElapsed_eq]
  split_ifs with h
  · exact le_rfl
  · exact not_lt.1 h

theorem timerCalls_mono (real : Bool) : ∀ (es : List (TimerCall × ClockReading)) (v : TimerVars K), (∀ e ∈ es, e.1 ≠ .start) →
    clockStart real v ≤ clockStart real (timerCalls es v) := by
  intro es
  induction es with
  | nil => intro v _; exact le_rfl
  | cons e es ih =>
    intro v h
    obtain ⟨c, r⟩ := e
    have h' : ∀ e ∈ es, e.1 ≠ .start := fun e he => h e (by simp [he])
    cases c with
    | start => exact absurd rfl (h (.start, r) (by simp))
    | stop =>
      refine le_trans ?_ (ih (timerStop r v) h')
      rw [(clockStart_stop real r v).1]
    | continue_ =>
      refine le_trans ?_ (ih (timerContinue r v) h')
      rw [clockStart_continue]
      split_ifs with hp
      · linarith
      · exact le_rfl

/-- **C117.** The time reported is never more than the time since the timer was last started, however it was stopped and continued and whatever the clocks say in between. -/
theorem C117_at_most (real : Bool) (v : TimerVars K) (first now : ClockReading) (es : List (TimerCall × ClockReading)) (h : ∀ e ∈ es, e.1 ≠ .start) :
    timerElapsed real now (timerCalls ((.start, first) :: es) v) ≤ max 0 ((clock real now : K) - clock real first) := by
  have := timerCalls_mono real es (timerStart first v) h
  rw [clockStart_start] at this
  simp only [timerCalls]
  rw [timerElapsed_eq]
  by_cases h' : (clock real now : K) - clockStart real (timerCalls es (timerStart first v)) < 0
  · rw [if_pos h']; exact le_max_left _ _
  · rw [if_neg h']
    exact le_max_of_le_right (by linarith)

/-! ## Where it fails -/

/-- a reading of both clocks at `s` seconds -/
def atSec (s : ℤ) : ClockReading := ⟨⟨s, 0⟩, ⟨s, 0⟩, ⟨0, 0⟩⟩

/-- **C117 is false while the timer is stopped**: the time that passed since it was stopped is reported too. -/
theorem C117_false_stopped (real : Bool) (v : TimerVars ℚ) :
    timerElapsed real (atSec 5) (timerCalls [(.start, atSec 0), (.stop, atSec 1)] v) = 5 ∧
      runningTime (0 : ℚ) true 0 [(.stop, 1)] 5 = 1 := by
  constructor
  · cases real <;> norm_num [timerElapsed, timerElapsedReal, timerElapsedVirtual, timerCalls, timerStart, timerStop, wallTime, cpuTime, atSec]
  · norm_num [runningTime]

/-- **C117 is false if the timer is continued twice**: the time between the calls is lost. -/
theorem C117_false_continued_twice (real : Bool) (v : TimerVars ℚ) :
    timerElapsed real (atSec 6) (timerCalls [(.start, atSec 0), (.stop, atSec 1), (.continue_, atSec 2), (.continue_, atSec 5)] v) = 1 ∧
      runningTime (0 : ℚ) true 0 [(.stop, 1), (.continue_, 2), (.continue_, 5)] 6 = 5 := by
  constructor
  · cases real <;> norm_num [timerElapsed, timerElapsedReal, timerElapsedVirtual, timerCalls, timerStart, timerStop, timerContinue, wallTime, cpuTime, atSec]
  · norm_num [runningTime]

/-! ## A concrete run -/

/-- started at 1 s, stopped from 3 s to 7 s, asked at 10 s: 5 s -/
example (v : TimerVars ℚ) : timerElapsed false (atSec 10) (timerCalls [(.start, atSec 1), (.stop, atSec 3), (.continue_, atSec 7)] v) = 5 := by
  rw [C117_elapsed false v (atSec 1) (atSec 10) [(.stop, atSec 3), (.continue_, atSec 7)] rfl
    (by norm_num [clock, seconds, atSec])]
  norm_num [runningTime, timed, clock, seconds, atSec]

/-- microseconds of both modes are added -/
example : (cpuTime ⟨⟨0, 0⟩, ⟨1, 250000⟩, ⟨2, 500000⟩⟩ : ℚ) = 15 / 4 := by norm_num [cpuTime]

end Moo
