import Verif.Spec.Primes
/-!
# Facts about the sequence of primes
-/

namespace Sentinel.Spec

/-- The primes below 256, spelled out. -/
def primeList : List Nat :=
  [2, 3, 5, 7, 11, 13, 17, 19, 23, 29, 31, 37, 41, 43, 47, 53, 59, 61, 67, 71, 73, 79, 83, 89, 97, 101, 103, 107,
   109, 113, 127, 131, 137, 139, 149, 151, 157, 163, 167, 173, 179, 181, 191, 193, 197, 199, 211, 223, 227, 229,
   233, 239, 241, 251]

theorem prime_iff (n : Nat) : Nat.Prime n ↔ 2 ≤ n ∧ ∀ m < n, 2 ≤ m → ¬ m ∣ n := by
  rw [Nat.prime_def_lt']
  exact and_congr_right fun _ => forall_congr' fun m => ⟨fun h a b => h b a, fun h a b => h b a⟩

theorem mem_primeList : ∀ n < 256, n ∈ primeList ↔ (2 ≤ n ∧ ∀ m < n, 2 ≤ m → ¬ m ∣ n) := by decide +kernel

theorem primes256_eq : primes256 = primeList := by
  have h : primes256 = (List.range 256).filter fun n => decide (n ∈ primeList) := by
    refine List.filter_congr fun n hn => ?_
    rw [decide_eq_decide, prime_iff, mem_primeList n (by simpa using hn)]
  rw [h]
  decide +kernel

/-- The first prime from `n` on, or 2 if there is none below 256. -/
def nextP (n : Nat) : Nat := (primeList.filter (n ≤ ·)).headD 2

theorem nextP_prime {n : Nat} (h : n < 256) (hp : Nat.Prime n) : nextP n = n := by
  rw [prime_iff, ← mem_primeList n h] at hp
  revert hp
  have : ∀ n < 256, n ∈ primeList → nextP n = n := by decide +kernel
  exact this n h

theorem nextP_comp {n : Nat} (h : n < 256) (hp : ¬ Nat.Prime n) : nextP n = nextP (n + 1) := by
  rw [prime_iff, ← mem_primeList n h] at hp
  revert hp
  have : ∀ n < 256, n ∉ primeList → nextP n = nextP (n + 1) := by decide +kernel
  exact this n h

theorem shown_eq (i : Nat) : shown i = primeList.getD ((i + 1) % 54) 0 := by
  rw [shown, primes256_eq]; rfl

theorem shown_zero : shown 0 = nextP 3 := by rw [shown_eq]; rfl

theorem shown_succ (i : Nat) : shown (i + 1) = nextP (shown i + 1) := by
  rw [shown_eq, shown_eq]
  have h : ∀ j < 54, primeList.getD ((j + 1) % 54) 0 = nextP (primeList.getD j 0 + 1) := by decide +kernel
  have := h ((i + 1) % 54) (Nat.mod_lt _ (by decide))
  rwa [Nat.mod_add_mod] at this

theorem shown_prime (i : Nat) : Nat.Prime (shown i) ∧ shown i < 256 := by
  have h : ∀ j < 54, primeList.getD j 0 ∈ primeList ∧ primeList.getD j 0 < 256 := by decide +kernel
  obtain ⟨h1, h2⟩ := h ((i + 1) % 54) (Nat.mod_lt _ (by decide))
  rw [shown_eq]
  exact ⟨(prime_iff _).2 ((mem_primeList _ h2).1 h1), h2⟩

end Sentinel.Spec
