import Verif.Model.TimePoint
import Verif.Spec.Time

/-! What time points denote. -/

namespace Verif.TimePoint

open Verif.Time

/-- A time point is `num / den` seconds after the beginning of 1970. -/
structure Seconds where
  num : Int
  den : Nat

/-- The time a time point of the user denotes. -/
def Point.time : Point → Seconds
  | .chrono num den count => ⟨count * num, den⟩
  | .chronoFrom offset num den count => ⟨count * num + offset * den, den⟩
  | .dateTime tps ticks => ⟨ticks, tps⟩
  | .timespec t => ⟨t.ns, 1000000000⟩

/-- Sensible time points: the ticks are positive; the resolution of Boost.DateTime is a multiple or a part of the unit (as all of its resolutions are);
a `timespec` is normalised. -/
def Point.Ok (frac : Nat) : Point → Prop
  | .chrono num den _ | .chronoFrom _ num den _ => 0 < num ∧ 0 < den
  | .dateTime tps ticks => 0 < tps ∧ (tps ∣ frac ∨ frac ∣ tps) ∧ InS64 ticks
  | .timespec t => t.Normal

/-- `n` units of `1/frac` seconds are the time `s`, rounded down. -/
def Seconds.RoundedDown (s : Seconds) (frac : Nat) (n : Int) : Prop := n * s.den ≤ s.num * frac ∧ s.num * frac < (n + 1) * s.den

/-- `n` units of `1/frac` seconds are less than `k` units away from the time `s`. -/
def Seconds.Near (s : Seconds) (frac k : Nat) (n : Int) : Prop := (n - k) * s.den < s.num * frac ∧ s.num * frac < (n + k) * s.den

/-- Seconds from the beginning of 1601 to the beginning of 1970. -/
def from1601 : Int := 11644473600

end Verif.TimePoint
