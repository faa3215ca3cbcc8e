import Verif.Model.Rand
import Verif.Spec.Rand
import Verif.Lemmas.Particle
import Mathlib.Data.Nat.Digits.Defs
import Mathlib.Tactic.FieldSimp

set_option linter.unusedSectionVars false
set_option linter.unusedSimpArgs false
set_option linter.unusedVariables false

namespace Pico
namespace Rand

variable {K : Type _} [Field K] [LinearOrder K] [IsStrictOrderedRing K] [FloorRing K]

theorem behind_range {b : Nat} (hb : 2 ≤ b) (l : List Nat) (h : ∀ d ∈ l, d < b) :
    0 ≤ (behindPoint b l : K) ∧ (behindPoint b l : K) < 1 := by
  induction l with
  | nil => exact ⟨le_refl _, one_pos⟩
  | cons d l ih =>
    obtain ⟨h1, h2⟩ := ih (fun x hx => h x (List.mem_cons_of_mem _ hx))
    have hd : (d : K) + 1 ≤ b := by exact_mod_cast h d List.mem_cons_self
    have b0 : (0 : K) < b := by exact_mod_cast (by omega : 0 < b)
    have d0 : (0 : K) ≤ d := Nat.cast_nonneg d
    unfold behindPoint
    refine ⟨by positivity, ?_⟩
    rw [div_lt_one b0]
    linarith

theorem while_rev {b : Nat} (hb : 2 ≤ b) (n : Nat) (r : K) (o : Nat) :
    ∃ t, While revCond (revBody (b : Int)) (⟨(n : Int), r, o⟩ : Rev K) t ∧
      t.r = r + behindPoint b (Nat.digits b n) * (b : K) ^ (-(o : Int) + 1) := by
  have b0 : (b : K) ≠ 0 := by exact_mod_cast (by omega : b ≠ 0)
  induction n using Nat.strong_induction_on generalizing r o with
  | _ n ih =>
    rcases Nat.eq_zero_or_pos n with rfl | hn
    · exact ⟨_, .done (by simp [revCond]), by simp [behindPoint]⟩
    · obtain ⟨t, hw, ht⟩ := ih (n / b) (Nat.div_lt_self hn (by omega)) (r + (n % b : Nat) * (b : K) ^ (-(o : Int))) (o + 1)
      have e : revBody (b : Int) (⟨(n : Int), r, o⟩ : Rev K) =
          ⟨((n / b : Nat) : Int), r + (n % b : Nat) * (b : K) ^ (-(o : Int)), o + 1⟩ := by
        unfold revBody
        have h1 : (n : Int).tmod b = ((n % b : Nat) : Int) := (Int.ofNat_tmod n b).symm
        have h2 : ((n : Int) - ((n % b : Nat) : Int)).tdiv (b : Int) = ((n / b : Nat) : Int) := by
          have : (n : Int) - ((n % b : Nat) : Int) = ((b * (n / b) : Nat) : Int) := by
            have := Nat.div_add_mod n b
            omega
          rw [this, ← Int.ofNat_tdiv, Nat.mul_div_cancel_left _ (by omega)]
        dsimp only
        rw [h1, h2, Int.cast_natCast, Int.cast_natCast]
      refine ⟨t, .step (by simp [revCond]; exact hn) (by rw [e]; exact hw), ?_⟩
      rw [ht, Nat.digits_def' (by omega) hn, behindPoint]
      have p1 : (b : K) ^ (-((o + 1 : Nat) : Int) + 1) = (b : K) ^ (-(o : Int)) := by congr 1; push_cast; ring
      have p2 : (b : K) ^ (-(o : Int) + 1) = (b : K) ^ (-(o : Int)) * b := by rw [zpow_add₀ b0, zpow_one]
      rw [p1, p2]
      field_simp
      ring

theorem digits_inj {b : Nat} (hb : 2 ≤ b) (n m : Nat) (h : (behindPoint b (Nat.digits b n) : K) = behindPoint b (Nat.digits b m)) :
    n = m := by
  have b0 : (b : K) ≠ 0 := by exact_mod_cast (by omega : b ≠ 0)
  have rng : ∀ k : Nat, 0 ≤ (behindPoint b (Nat.digits b k) : K) ∧ (behindPoint b (Nat.digits b k) : K) < 1 :=
    fun k => behind_range hb _ (fun d hd => Nat.digits_lt_base (by omega) hd)
  have rec_ : ∀ k : Nat, (behindPoint b (Nat.digits b k) : K) * b = (k % b : Nat) + behindPoint b (Nat.digits b (k / b)) := by
    intro k
    rcases Nat.eq_zero_or_pos k with rfl | hk
    · simp [behindPoint]
    · rw [Nat.digits_def' (by omega) hk, behindPoint]
      field_simp
  induction n using Nat.strong_induction_on generalizing m with
  | _ n ih =>
    have e : ((n % b : Nat) : K) + behindPoint b (Nat.digits b (n / b)) = (m % b : Nat) + behindPoint b (Nat.digits b (m / b)) := by
      rw [← rec_, ← rec_, h]
    have fl : n % b = m % b := by
      have a := rng (n / b)
      have c := rng (m / b)
      have l1 : ((n % b : Nat) : K) < (m % b : Nat) + 1 := by linarith
      have l2 : ((m % b : Nat) : K) < (n % b : Nat) + 1 := by linarith
      have l1' : n % b < m % b + 1 := by exact_mod_cast l1
      have l2' : m % b < n % b + 1 := by exact_mod_cast l2
      omega
    have q : (behindPoint b (Nat.digits b (n / b)) : K) = behindPoint b (Nat.digits b (m / b)) := by
      rw [fl] at e; linarith
    have hdn := Nat.div_add_mod n b
    have hdm := Nat.div_add_mod m b
    rcases Nat.eq_zero_or_pos n with rfl | hn
    · -- n = 0: then m is zero as well
      have z : (behindPoint b (Nat.digits b m) : K) = 0 := by rw [← h]; simp [behindPoint]
      by_contra hm
      have : ∀ k : Nat, 0 < k → 0 < (behindPoint b (Nat.digits b k) : K) := by
        intro k
        induction k using Nat.strong_induction_on with
        | _ k ihk =>
          intro hk
          rw [Nat.digits_def' (by omega) hk, behindPoint]
          have bp : (0 : K) < b := by exact_mod_cast (by omega : 0 < b)
          apply div_pos _ bp
          rcases Nat.eq_zero_or_pos (k % b) with h0 | h0
          · have kd : 0 < k / b := by
              have := Nat.div_add_mod k b
              rcases Nat.eq_zero_or_pos (k / b) with h1 | h1
              · rw [h1, h0] at this; omega
              · exact h1
            have := ihk (k / b) (Nat.div_lt_self hk (by omega)) kd
            have c0 : (0 : K) ≤ ((k % b : Nat) : K) := Nat.cast_nonneg _
            linarith
          · have c0 : (0 : K) < ((k % b : Nat) : K) := by exact_mod_cast h0
            have := (rng (k / b)).1
            linarith
      exact absurd z (this m (by omega)).ne'
    · have := ih (n / b) (Nat.div_lt_self hn (by omega)) (m / b) q
      rw [← hdn, ← hdm, this, fl]

end Rand
end Pico
