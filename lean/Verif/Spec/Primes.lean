import Mathlib.Data.Nat.Prime.Basic
/-!
# The sequence of primes the demo firmware shows
-/

namespace Sentinel.Spec

/-- The primes below 256, in order. -/
def primes256 : List Nat := (List.range 256).filter fun n => Nat.Prime n

/-- The `i`-th number shown: the primes below 256 in order, over and over, starting with 3. -/
def shown (i : Nat) : Nat := primes256.getD ((i + 1) % primes256.length) 0

end Sentinel.Spec
