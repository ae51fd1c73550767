import Verif.Proof.Primes
import Verif.Proof.AttoProg
/-!
# C61: the prime number firmware lights up the primes
-/

namespace Sentinel.Atto
open Spec Primes

variable {k D : Nat} {s : Atto k} {p : Nat → AttoIn}

theorem primes_start (h : s.AfterReset) : PrimesInv s.ram.mem (s.run D p 5).cpu.arch s.plat [] := by
  obtain ⟨h1, h2, -⟩ := C01_trace h.cpu (registered (D := D) (p := p) h) 0
  rw [← run_cpu] at h1 h2
  exact ⟨rfl, h2, 0, by decide, h1, rfl⟩

/-- **C61** (LEDs): with the prime number firmware in RAM, whatever happens on the pins, there is a count
of primes shown that starts at 0, grows by at most one per cycle, and grows for ever, and the LEDs show
the last of them: in each cycle the LEDs are off if the count is 0 and otherwise show the prime of that
number in the sequence 3, 5, 7, ..., 251, 2, 3, ... -/
theorem C61_leds (h : s.AfterReset) (hM : HoldsProgram s.ram.mem primesProgram) :
    ∃ c : Nat → Nat, c 0 = 0 ∧ (∀ t, c (t + 1) = c t ∨ c (t + 1) = c t + 1) ∧ (∀ n, ∃ t, n ≤ c t) ∧
      ∀ t, (s.run D p t).leds.leds = if c t = 0 then 0 else BitVec.ofNat 8 (shown (c t - 1)) := by
  have hI := primes_ok hM
  obtain ⟨-, hG⟩ := prog_safe (D := D) (p := p) hI h (primes_start h)
  refine ⟨fun t => (outputs s D p t).length, rfl, fun t => ?_, prog_live hI h (primes_start h), fun t => ?_⟩
  · obtain ⟨l, hl, e⟩ := outputs_succ (s := s) (D := D) (p := p) t
    simp only [e, List.length_append]; omega
  · rw [leds_eq h, hG t]
    show _ = if (outputs s D p t).length = 0 then _ else BitVec.ofNat 8 (shown ((outputs s D p t).length - 1))
    generalize (outputs s D p t).length = n
    cases n with
    | zero => rfl
    | succ n => simp [List.range_succ]

/-- **C61** (accesses): the firmware never accesses an address where nothing is, and instructions are
executed for ever. -/
theorem C61_safe (h : s.AfterReset) (hM : HoldsProgram s.ram.mem primesProgram) :
    (∀ t, (s.run D p t).cpu.cyc = true → (s.run D p t).cpu.req.target.isSome = true) ∧
      ∀ n, ∃ t w m, n ≤ t ∧ s.cpu.Executes (s.inputs D p) t w m := by
  obtain ⟨-, h1, h2⟩ := C56_safe h (prog_safe (D := D) (p := p) (primes_ok hM) h (primes_start h)).1
  exact ⟨h2, h1⟩

/-- **C61** (primes): every number in the sequence is a prime that fits the LEDs, consecutive numbers
have no prime between them, and after the largest prime below 256 comes 2. -/
theorem C61_shown (i : Nat) : Nat.Prime (shown i) ∧ shown i < 256 ∧ shown 0 = 3 ∧
    (shown i < shown (i + 1) ∧ (∀ q, shown i < q → q < shown (i + 1) → ¬ Nat.Prime q) ∨
      shown (i + 1) = 2 ∧ ∀ q, shown i < q → q < 256 → ¬ Nat.Prime q) := by
  obtain ⟨h1, h2⟩ := shown_prime i
  refine ⟨h1, h2, by rw [shown_zero]; decide, ?_⟩
  have key : ∀ j < 54, (primeList.getD j 0 < primeList.getD ((j + 1) % 54) 0 ∧
      ∀ q < 256, primeList.getD j 0 < q → q < primeList.getD ((j + 1) % 54) 0 → ¬ q ∈ primeList) ∨
      primeList.getD ((j + 1) % 54) 0 = 2 ∧ ∀ q < 256, primeList.getD j 0 < q → ¬ q ∈ primeList := by
    have : ∀ j : _root_.Fin 54, (primeList.getD j 0 < primeList.getD ((j + 1) % 54) 0 ∧
        ∀ q : _root_.Fin 256, (primeList.getD j 0 < q ∧ q < primeList.getD ((j + 1) % 54) 0) → ¬ q.val ∈ primeList) ∨
        primeList.getD ((j + 1) % 54) 0 = 2 ∧ ∀ q : _root_.Fin 256, primeList.getD j 0 < q → ¬ q.val ∈ primeList := by
      decide +kernel
    intro j hj
    rcases this ⟨j, hj⟩ with ⟨k1, k2⟩ | ⟨k1, k2⟩
    · exact .inl ⟨k1, fun q hq a b => k2 ⟨q, hq⟩ ⟨a, b⟩⟩
    · exact .inr ⟨k1, fun q hq a => k2 ⟨q, hq⟩ a⟩
  have hp : ∀ q < 256, q ∉ primeList → ¬ Nat.Prime q := fun q hq hn h => hn ((mem_primeList q hq).2 ((prime_iff q).1 h))
  have h3 := (shown_prime (i + 1)).2
  have k := key ((i + 1) % 54) (Nat.mod_lt _ (by decide))
  rw [Nat.mod_add_mod, ← shown_eq, ← shown_eq] at k
  rcases k with ⟨k1, k2⟩ | ⟨k1, k2⟩
  · exact .inl ⟨k1, fun q ha hb => hp q (by omega) (k2 q (by omega) ha hb)⟩
  · exact .inr ⟨k1, fun q ha hb => hp q hb (k2 q hb ha)⟩

/-- The hypotheses of `C61_leds` and `C61_safe` hold of 32 words of RAM. -/
example : (attoDemo primesProgram).AfterReset ∧ HoldsProgram (attoDemo primesProgram).ram.mem primesProgram := by
  refine ⟨attoDemo_reset _, fun i hi => ?_⟩
  have : ∀ i : _root_.Fin 28, (attoDemo primesProgram).ram.mem (BitVec.ofNat 5 i) = primesProgram[i.val]'i.isLt := by
    decide +kernel
  exact this ⟨i, hi⟩

end Sentinel.Atto
