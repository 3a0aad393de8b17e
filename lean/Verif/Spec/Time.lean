import Verif.Model.Time

/-! What times denote. -/

namespace Verif.Time

/-- Nanoseconds since the epoch. -/
def Timespec.ns (t : Timespec) : Int := t.sec * 1000000000 + t.nsec

/-- A time point as the system delivers and expects it. -/
structure Timespec.Normal (t : Timespec) : Prop where
  sec : InS64 t.sec
  lo : 0 ≤ t.nsec
  hi : t.nsec < 1000000000

/-- The normalised time point of `n` nanoseconds since the epoch exists. -/
def Representable (n : Int) : Prop := ∃ t : Timespec, t.Normal ∧ t.ns = n

/-- `r` units of `1/frac` seconds are `count` ticks of `num/den` seconds, truncated toward zero. -/
structure Truncates (frac num den : Nat) (count r : Int) : Prop where
  /-- off by less than one unit -/
  close : count * (num * frac) - r * den < den ∧ r * den - count * (num * frac) < den
  /-- toward zero -/
  nonneg : 0 ≤ count → 0 ≤ r ∧ r * den ≤ count * (num * frac)
  nonpos : count ≤ 0 → r ≤ 0 ∧ count * (num * frac) ≤ r * den

/-- The longest time in nanoseconds for which the system may block the thread, given the request and the current time. -/
def Request.blocks (now : Timespec) : Request → Int
  | .nothing => 0
  | .relative n => n
  | .absolute t => t.ns - now.ns

end Verif.Time
