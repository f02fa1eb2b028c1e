import Verif.Spec.CronChosen
import Verif.Spec.History
/-!
# Specification: the turns of cronjobs

A cronjob has its turn when it is started, or when it is said why it is not started now. Each
time this follows a reading of the clock.
-/

namespace Cinit.Spec

open Cinit

/-- The reading of the clock a history ends with. -/
def reading : Log → Option Int
  | .clock t :: _ => some t
  | _ => none

/-- The event is a turn of program `i`: starting it is tried, or it is said why not. -/
def isTurn (i : Nat) : Event → Bool
  | .spawned j _ _ _ => j == i
  | .spawnFailed j => j == i
  | .refused j _ => j == i
  | .postponed j => j == i
  | _ => false

/-- The clock when program `i` had its last turn; if it had none so far, the clock at `first`. -/
def lastTurn (i : Nat) (first : Int) : Log → Int
  | [] => first
  | e :: past => if isTurn i e then (reading past).getD first else lastTurn i first past

/-- The number of cronjobs among some programs. -/
def cronjobs (ps : List ProcessConfig) : Nat :=
  ps.countP fun c => match c.ptype with
    | .cronJob _ => true
    | _ => false

/-- The reading of the clock used for the first plan of program `i`: before the event loop the
clock is read once for every cronjob, in the order of the configuration. -/
def firstReading (ps : List ProcessConfig) (clock : List Int) (i : Nat) : Int :=
  clock.getD (cronjobs (ps.take i)) 0

/-- `v` is the instant aimed at from `t` on, where the wall clock is ahead by `off`. -/
def Schedule.Aimed (s : Schedule) (off t v : Int) : Prop :=
  ∃ (n : Int) (h m : Nat), s.DayChosen (t + off) n ∧ s.TimeChosen (t + off) h m ∧
    v + off = wallAt n h m

end Cinit.Spec
