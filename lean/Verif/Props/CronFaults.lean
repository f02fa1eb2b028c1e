import Verif.Proofs.CronFaults
/-!
# C54: which expressions are rejected, and why
-/

namespace Cinit.Props
open Spec

/-- C54: an expression is refused exactly if something is wrong with it, and what is said about it
is so. Not covered are expressions with a step of zero (C21). -/
theorem C54_refused_partial (s : Str) (hz : ¬ ZeroStep s) :
    (∀ msg, Timer.parse s = .err msg → TimerWrong s (timerString msg)) ∧
    ((∃ msg, Timer.parse s = .err msg) ↔ ∃ why, TimerWrong s why) := by
  refine ⟨fun msg h => timer_wrong h, fun ⟨msg, h⟩ => ⟨_, timer_wrong h⟩, ?_⟩
  rintro ⟨why, hw⟩
  cases h : Timer.parse s with
  | ok t => exact absurd hw (timer_right h why)
  | err msg => exact ⟨msg, rfl⟩
  | panic q => exact absurd (C21_panic_partial s q h).2 hz

/-- Something wrong in the second field. -/
example : Timer.parse "1 24 * * *".toList = .err .outOfRange ∧
    TimerWrong "1 24 * * *".toList "Invalid range in timer spec" := by
  have h : Timer.parse "1 24 * * *".toList = .err .outOfRange := by decide +kernel
  exact ⟨h, timer_wrong h⟩

end Cinit.Props
