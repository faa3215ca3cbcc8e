import Verif.Spec.TimeStep
import Verif.Props.Energy
import Verif.Props.Limits
import Mathlib.Analysis.SpecialFunctions.Trigonometric.Basic
import Mathlib.Tactic.FieldSimp
import Mathlib.Tactic.Positivity
import Mathlib.Tactic.LinearCombination

/-! # C135: the time steps the program accepts and the growth of the fields -/

set_option linter.unusedSimpArgs false
set_option linter.unusedVariables false
set_option linter.unusedSectionVars false

namespace Pico
namespace Yee

section
variable {K : Type _} [Field K] [LinearOrder K] [IsStrictOrderedRing K]

/-- Alternating signs. -/
def alt (n : Int) : K := if n % 2 = 0 then 1 else -1

theorem alt_succ (n : Int) : (alt (n + 1) : K) = -alt n := by
  unfold alt
  by_cases h : n % 2 = 0
  · rw [if_pos h, if_neg (by omega)]
  · rw [if_neg h, if_pos (by omega), neg_neg]

theorem alt_pred (n : Int) : (alt (n - 1) : K) = -alt n := by
  have := alt_succ (K := K) (n - 1)
  rw [sub_add_cancel] at this
  rw [this, neg_neg]

theorem alt_sq (n : Int) : (alt n : K) ^ 2 = 1 := by
  unfold alt; split <;> norm_num

/-- The magnetic part of the azimuthal equation. -/
def yP (p : Par K) (m : Mem K) (i k : Int) : K :=
  -(m .hr i k - m .hr i (k - 1)) / p.dz + (m .hz i k - m .hz (i - 1) k) / p.dr

/-- The azimuthal field in a step. -/
theorem step_ep {p : Par K} (hp : p.Good) (hc : Closed p) (e : K) (he : 0 < e) (s : Comp → Int → Int → K)
    (hs : s .eps = fun _ _ => e) (hg : s .sig = fun _ _ => 0) {m m' : Mem K} (hm : Shut p m)
    (h : (calcE p (setSources s m) >>= calcH p) = .ok m') :
    Shut p m' ∧
    (∀ i k : Int, 1 ≤ i → i ≤ (p.nr : Int) - 2 → 1 ≤ k → k ≤ (p.nz : Int) - 2 →
      m' .ep i k = m .ep i k - p.dt / e * (s .jp i k + yP p m i k) ∧
      yP p m' i k = yP p m i k - p.dt / p.mu *
        ((m' .ep i (k + 1) - 2 * m' .ep i k + m' .ep i (k - 1)) / p.dz ^ 2 +
          (((m' .ep (i + 1) k + m' .ep i k) / (2 * p.dr * ((i : K) + 1 / 2)) + (m' .ep (i + 1) k - m' .ep i k) / p.dr) -
            ((m' .ep i k + m' .ep (i - 1) k) / (2 * p.dr * ((i : K) - 1 / 2)) + (m' .ep i k - m' .ep (i - 1) k) / p.dr)) /
            p.dr)) := by
  obtain ⟨m1, e1, sh, lk, _⟩ := step_closed hp hc (fun _ _ => e) s hs
    (fun i k _ => by rw [hg]; simp only [zero_mul, add_zero]; positivity) hm
  obtain rfl : m1 = m' := Res.ok.inj (e1.symm.trans h)
  refine ⟨sh, fun i k i1 i2 k1 k2 => ?_⟩
  have nr' := hp.nr'
  have nz' := hp.nz'
  have nr1 := hp.nr
  have nz1 := hp.nz
  have dz0 := hp.dz.ne'
  have dr0 := hp.dr.ne'
  have mu0 := hp.mu.ne'
  have hl : p.logical i k := by unfold Par.logical; omega
  obtain ⟨n, en, h1, h2, h3⟩ := calcE_eq p hp.nr (by omega) hp.nz (by omega) (setSources s m)
  rw [en, Res.ok_bind] at h
  obtain ⟨m2, eh, g1, g2, _⟩ := calcH_eq p hp.nr n
  obtain rfl : m2 = m1 := Res.ok.inj (eh.symm.trans h)
  have b0 : ((begin_ p.walls.r0 : Nat) : Int) = 1 := by unfold begin_; rw [if_pos hc.r0]; rfl
  have b1 : ((begin_ p.walls.z0 : Nat) : Int) = 1 := by unfold begin_; rw [if_pos hc.z0]; rfl
  have e0 : ((end_ p.walls.rr p.nr : Nat) : Int) = (p.nr : Int) - 1 := by
    rw [end_lt _ hp.nr (by omega), if_pos hc.rr]; omega
  have e1 : ((end_ p.walls.zz p.nz : Nat) : Int) = (p.nz : Int) - 1 := by
    rw [end_lt _ hp.nz (by omega), if_pos hc.zz]; omega
  constructor
  · rw [g1 _ _ _ (by unfold isH; decide), (h3 i k hl).2.1, b0, b1, e0, e1, if_pos (by omega)]
    unfold newE koefE koefH xP yP
    rw [setSources_source s m (c := .eps) rfl, setSources_source s m (c := .sig) rfl, setSources_source s m (c := .jp) rfl,
      setSources_field s m (c := .ep) rfl, setSources_field s m (c := .hr) rfl, setSources_field s m (c := .hz) rfl,
      hs, hg]
    simp only [zero_mul, sub_zero, add_zero]
    field_simp
    ring
  · have l1 := lk i k hl
    have l2 := (lk i (k - 1) (by unfold Par.logical; omega)).1
    have l3 := (lk (i - 1) k (by unfold Par.logical; omega)).2.2
    unfold yP
    rw [l1.1, l1.2.2, l2, l3]
    unfold aR aZ
    have hi : ((i - 1 : Int) : K) + 1 / 2 = (i : K) - 1 / 2 := by push_cast; ring
    rw [hc.axis]
    simp only [Nat.cast_zero, add_zero, sub_add_cancel, hi]
    generalize (m2 .ep (i + 1) k + m2 .ep i k) / (2 * p.dr * ((i : K) + 1 / 2)) = A
    generalize (m2 .ep i k + m2 .ep (i - 1) k) / (2 * p.dr * ((i : K) - 1 / 2)) = B
    field_simp
    ring

/-- The operator on the amplitudes of the rows, for alternating signs. -/
def rowOp (p : Par K) (c : K) (f : Int → K) (i : Int) : K :=
  (2 + 2 * c) / p.dz ^ 2 * f i +
    (f (i + 1) * (1 + 1 / (2 * (i : K) + 1)) + f i * (2 + 2 / (4 * (i : K) ^ 2 - 1)) +
      f (i - 1) * (1 - 1 / (2 * (i : K) - 1))) / p.dr ^ 2

/-- Inner rows. -/
def Inner (p : Par K) (i : Int) : Prop := 1 ≤ i ∧ i ≤ (p.nr : Int) - 2

instance (p : Par K) (i : Int) : Decidable (Inner p i) := by unfold Inner; infer_instance

/-- Amplitudes of the rows, one after the other. -/
def amp (p : Par K) (e c : K) : Nat → Int → K
  | 0 => fun i => if i = 1 then 1 else 0
  | 1 => fun i => if Inner p i then
      p.dt ^ 2 / (e * p.mu) * rowOp p c (fun i => if i = 1 then 1 else 0) i - (if i = 1 then 1 else 0) else 0
  | t + 2 => fun i => if Inner p i then
      p.dt ^ 2 / (e * p.mu) * rowOp p c (amp p e c (t + 1)) i - 2 * amp p e c (t + 1) i - amp p e c t i else 0

theorem amp_out (p : Par K) (hn : 3 ≤ p.nr) (e c : K) (t : Nat) {i : Int} (h : ¬ Inner p i) : amp p e c t i = 0 := by
  match t with
  | 0 => unfold amp; unfold Inner at h; rw [if_neg (by omega)]
  | 1 => unfold amp; rw [if_neg h]
  | t + 2 => unfold amp; rw [if_neg h]

theorem rowOp_ge {p : Par K} (hp : p.Good) {e c : K} (he : 0 < e)
    (h4 : 4 ≤ p.dt ^ 2 / (e * p.mu) * ((2 + 2 * c) / p.dz ^ 2 + 2 / p.dr ^ 2)) {f : Int → K} (hf : ∀ i, 0 ≤ f i)
    {i : Int} (hi : 1 ≤ i) : 4 * f i ≤ p.dt ^ 2 / (e * p.mu) * rowOp p c f i := by
  have dr := hp.dr
  have mu := hp.mu
  have dt := hp.dt
  have i1 : (1 : K) ≤ (i : K) := by exact_mod_cast hi
  have t0 : 0 ≤ p.dt ^ 2 / (e * p.mu) := by positivity
  have a0 : 0 ≤ f (i + 1) * (1 + 1 / (2 * (i : K) + 1)) := mul_nonneg (hf _) (by positivity)
  have a1 : 0 ≤ f i * (2 / (4 * (i : K) ^ 2 - 1)) := mul_nonneg (hf _) (div_nonneg (by norm_num) (by nlinarith))
  have a2 : 0 ≤ f (i - 1) * (1 - 1 / (2 * (i : K) - 1)) := by
    refine mul_nonneg (hf _) ?_
    rw [sub_nonneg, div_le_one (by linarith)]
    linarith
  have k1 : ((2 + 2 * c) / p.dz ^ 2 + 2 / p.dr ^ 2) * f i ≤ rowOp p c f i := by
    unfold rowOp
    have : f i * 2 / p.dr ^ 2 ≤ (f (i + 1) * (1 + 1 / (2 * (i : K) + 1)) + f i * (2 + 2 / (4 * (i : K) ^ 2 - 1)) +
      f (i - 1) * (1 - 1 / (2 * (i : K) - 1))) / p.dr ^ 2 := by
      refine div_le_div_of_nonneg_right ?_ (by positivity)
      rw [mul_add]
      linarith
    have e2 : 2 / p.dr ^ 2 * f i = f i * 2 / p.dr ^ 2 := by ring
    rw [add_mul, e2]
    linarith
  calc 4 * f i ≤ p.dt ^ 2 / (e * p.mu) * ((2 + 2 * c) / p.dz ^ 2 + 2 / p.dr ^ 2) * f i :=
        mul_le_mul_of_nonneg_right h4 (hf i)
    _ = p.dt ^ 2 / (e * p.mu) * (((2 + 2 * c) / p.dz ^ 2 + 2 / p.dr ^ 2) * f i) := by ring
    _ ≤ _ := mul_le_mul_of_nonneg_left k1 t0

theorem amp_grows {p : Par K} (hp : p.Good) (hn : 3 ≤ p.nr) {e c : K} (he : 0 < e)
    (h4 : 4 ≤ p.dt ^ 2 / (e * p.mu) * ((2 + 2 * c) / p.dz ^ 2 + 2 / p.dr ^ 2)) (t : Nat) :
    (∀ i, 0 ≤ amp p e c t i) ∧ ∀ i, amp p e c t i + 2 * (if i = 1 then 1 else 0) ≤ amp p e c (t + 1) i := by
  induction t with
  | zero =>
    have n0 : ∀ i, 0 ≤ amp p e c 0 i := fun i => by unfold amp; split <;> norm_num
    refine ⟨n0, fun i => ?_⟩
    by_cases hi : Inner p i
    · have := rowOp_ge hp he h4 n0 hi.1
      show _ ≤ amp p e c 1 i
      unfold amp at this ⊢
      rw [if_pos hi]
      linarith
    · rw [amp_out p hn e c _ hi, amp_out p hn e c _ hi, if_neg (by unfold Inner at hi; omega)]
      norm_num
  | succ t ih =>
    have n1 : ∀ i, 0 ≤ amp p e c (t + 1) i := fun i => by
      have := ih.2 i
      have := ih.1 i
      have : (0 : K) ≤ if i = 1 then 1 else 0 := by split <;> norm_num
      linarith
    refine ⟨n1, fun i => ?_⟩
    by_cases hi : Inner p i
    · have h := rowOp_ge hp he h4 n1 hi.1
      have g := ih.2 i
      show _ ≤ amp p e c (t + 2) i
      rw [amp]
      simp only [if_pos hi]
      linarith
    · rw [amp_out p hn e c _ hi, amp_out p hn e c _ hi, if_neg (by unfold Inner at hi; omega)]
      norm_num

theorem amp_one {p : Par K} (hp : p.Good) (hn : 3 ≤ p.nr) {e c : K} (he : 0 < e)
    (h4 : 4 ≤ p.dt ^ 2 / (e * p.mu) * ((2 + 2 * c) / p.dz ^ 2 + 2 / p.dr ^ 2)) (t : Nat) :
    2 * (t : K) + 1 ≤ amp p e c t 1 := by
  induction t with
  | zero => unfold amp; norm_num
  | succ t ih =>
    have := (amp_grows hp hn he h4 t).2 1
    rw [if_pos rfl] at this
    push_cast
    linarith

/-- The change of the magnetic part for alternating signs. -/
theorem row_curl {p : Par K} (hp : p.Good) {c : K} (s : Int → K) (f : Int → K) (E : Int → Int → K) (t : Int) {i k : Int}
    (hi : 1 ≤ i) (hs : s (k + 1) + s (k - 1) = 2 * c * s k)
    (h00 : E i k = alt (t + i + k) * f i * s k)
    (h01 : E i (k + 1) = alt (t + i + (k + 1)) * f i * s (k + 1))
    (h0m : E i (k - 1) = alt (t + i + (k - 1)) * f i * s (k - 1))
    (h10 : E (i + 1) k = alt (t + (i + 1) + k) * f (i + 1) * s k)
    (hm0 : E (i - 1) k = alt (t + (i - 1) + k) * f (i - 1) * s k) :
    (E i (k + 1) - 2 * E i k + E i (k - 1)) / p.dz ^ 2 +
      (((E (i + 1) k + E i k) / (2 * p.dr * ((i : K) + 1 / 2)) + (E (i + 1) k - E i k) / p.dr) -
        ((E i k + E (i - 1) k) / (2 * p.dr * ((i : K) - 1 / 2)) + (E i k - E (i - 1) k) / p.dr)) / p.dr =
    -(alt (t + i + k) * rowOp p c f i * s k) := by
  have dr := hp.dr.ne'
  have dz := hp.dz.ne'
  have i1 : (1 : K) ≤ (i : K) := by exact_mod_cast hi
  have d1 : 2 * (i : K) + 1 ≠ 0 := by positivity
  have d2 : 2 * (i : K) - 1 ≠ 0 := by have : 0 < 2 * (i : K) - 1 := by linarith
                                      exact this.ne'
  have d3 : 4 * (i : K) ^ 2 - 1 = (2 * (i : K) + 1) * (2 * (i : K) - 1) := by ring
  have d4 : (i : K) + 1 / 2 = (2 * (i : K) + 1) / 2 := by ring
  have d5 : (i : K) - 1 / 2 = (2 * (i : K) - 1) / 2 := by ring
  rw [show t + i + (k + 1) = t + i + k + 1 by ring, alt_succ] at h01
  rw [show t + i + (k - 1) = t + i + k - 1 by ring, alt_pred] at h0m
  rw [show t + (i + 1) + k = t + i + k + 1 by ring, alt_succ] at h10
  rw [show t + (i - 1) + k = t + i + k - 1 by ring, alt_pred] at hm0
  have hz : E i (k + 1) - 2 * E i k + E i (k - 1) = -(alt (t + i + k) * f i * ((2 + 2 * c) * s k)) := by
    rw [h01, h0m, h00]
    linear_combination -(alt (t + i + k) * f i) * hs
  rw [hz, h10, hm0, h00]
  unfold rowOp
  rw [d3, d4, d5]
  generalize (alt (t + i + k) : K) = a
  generalize f (i + 1) = f1
  generalize f (i - 1) = f2
  generalize f i = f0
  generalize s k = s0
  generalize (i : K) = x at *
  field_simp
  ring

/-- **The run.** -/
theorem run_alt {p : Par K} (hp : p.Good) (hc : Closed p) (hn : 3 ≤ p.nr) {e c : K} (he : 0 < e) (s : Int → K)
    (s0 : s 0 = 0) (s1 : s ((p.nz : Int) - 1) = 0)
    (hs : ∀ k : Int, 1 ≤ k → k ≤ (p.nz : Int) - 2 → s (k + 1) + s (k - 1) = 2 * c * s k) :
    ∃ S : Nat → Mem K,
      (∀ t, wholeRun p (pulse e fun i k => if i = 1 then e / p.dt * (alt k * s k) else 0) t = .ok (S t)) ∧
      ∀ t i k, p.logical i k → S (t + 1) .ep i k = alt ((t : Int) + i + k) * amp p e c t i * s k := by
  set j : Int → Int → K := fun i k => if i = 1 then e / p.dt * (alt k * s k) else 0 with hj
  have dt := hp.dt
  have mu := hp.mu
  have nr' := hp.nr'
  have nz' := hp.nz'
  have nz1 := hp.nz
  obtain ⟨S, run, sh, lk, _, _, _⟩ := run_closed hp hc (fun _ _ => e) (pulse e j) (fun _ => rfl)
    (fun t i k _ => by
      show 2 * e + 0 * p.dt ≠ 0
      rw [zero_mul, add_zero]; positivity)
  have st : ∀ t, (calcE p (setSources (pulse e j t) (S t)) >>= calcH p) = .ok (S (t + 1)) := fun t => by
    have := run (t + 1)
    rwa [wholeRun, run t, Res.ok_bind] at this
  refine ⟨S, run, ?_⟩
  -- fields on the walls
  have wall : ∀ t u i k, p.logical i k → ¬ (1 ≤ i ∧ i ≤ (p.nr : Int) - 2 ∧ 1 ≤ k ∧ k ≤ (p.nz : Int) - 2) →
      S (t + 1) .ep i k = alt ((t : Int) + i + k) * amp p e c u i * s k := by
    intro t u i k hl hw
    have h := sh (t + 1)
    unfold Par.logical at hl
    have z : S (t + 1) .ep i k = 0 := by
      by_cases c1 : k = 0
      · rw [c1]; exact h.ep0 i (by omega) (by omega)
      by_cases c2 : k = (p.nz : Int) - 1
      · rw [c2]; exact (h.epz i (by omega) (by omega)).1
      by_cases c3 : i = 0
      · rw [c3]; exact h.epa k (by omega) (by omega)
      · have c4 : i = (p.nr : Int) - 1 := by omega
        rw [c4]; exact (h.epr k (by omega) (by omega)).1
    rw [z]
    by_cases c1 : k = 0
    · rw [c1, s0, mul_zero]
    by_cases c2 : k = (p.nz : Int) - 1
    · rw [c2, s1, mul_zero]
    rw [amp_out p hn e c u (by unfold Inner; omega), mul_zero, zero_mul]
  -- the invariant
  have inv : ∀ t : Nat, (∀ i k, p.logical i k → S (t + 1) .ep i k = alt ((t : Int) + i + k) * amp p e c t i * s k) ∧
      ∀ i k : Int, 1 ≤ i → i ≤ (p.nr : Int) - 2 → 1 ≤ k → k ≤ (p.nz : Int) - 2 →
        p.dt / e * yP p (S (t + 1)) i k = alt ((t : Int) + i + k) * (amp p e c (t + 1) i + amp p e c t i) * s k := by
    intro t
    induction t with
    | zero =>
      obtain ⟨_, stp⟩ := step_ep hp hc e he (pulse e j 0) rfl rfl (sh 0) (st 0)
      have z0 : S 0 = fun _ _ _ => 0 := (Res.ok.inj (run 0)).symm
      have y0 : ∀ i k, yP p (S 0) i k = 0 := fun i k => by unfold yP; rw [z0]; simp
      have ep : ∀ i k, p.logical i k → S (0 + 1) .ep i k = alt (((0 : Nat) : Int) + i + k) * amp p e c 0 i * s k := by
        intro i k hl
        by_cases hw : 1 ≤ i ∧ i ≤ (p.nr : Int) - 2 ∧ 1 ≤ k ∧ k ≤ (p.nz : Int) - 2
        · rw [(stp i k hw.1 hw.2.1 hw.2.2.1 hw.2.2.2).1, y0, z0]
          show (0 : K) - p.dt / e * ((if 0 = 0 then j i k else 0) + 0) = _
          rw [if_pos rfl, hj]
          unfold amp
          by_cases c1 : i = 1
          · rw [c1, show ((0 : Nat) : Int) + 1 + k = k + 1 by push_cast; ring, alt_succ]
            simp only [if_true]
            field_simp
            ring
          · simp only [if_neg c1]
            ring
        · exact wall 0 0 i k hl hw
      refine ⟨ep, fun i k i1 i2 k1 k2 => ?_⟩
      have hl : ∀ a b : Int, i - 1 ≤ a → a ≤ i + 1 → k - 1 ≤ b → b ≤ k + 1 → p.logical a b := by
        intro a b _ _ _ _; unfold Par.logical; omega
      rw [(stp i k i1 i2 k1 k2).2, y0, row_curl hp s (amp p e c 0) (S (0 + 1) .ep) ((0 : Nat) : Int) i1 (hs k k1 k2)
        (ep _ _ (hl _ _ (by omega) (by omega) (by omega) (by omega)))
        (ep _ _ (hl _ _ (by omega) (by omega) (by omega) (by omega)))
        (ep _ _ (hl _ _ (by omega) (by omega) (by omega) (by omega)))
        (ep _ _ (hl _ _ (by omega) (by omega) (by omega) (by omega)))
        (ep _ _ (hl _ _ (by omega) (by omega) (by omega) (by omega)))]
      have a1 : amp p e c (0 + 1) i + amp p e c 0 i = p.dt ^ 2 / (e * p.mu) * rowOp p c (amp p e c 0) i := by
        show amp p e c 1 i + amp p e c 0 i = _
        unfold amp
        rw [if_pos ⟨i1, i2⟩]
        ring
      rw [a1]
      field_simp
      ring
    | succ t ih =>
      obtain ⟨_, stp⟩ := step_ep hp hc e he (pulse e j (t + 1)) rfl rfl (sh (t + 1)) (st (t + 1))
      have al : ∀ i k : Int, (alt (((t + 1 : Nat) : Int) + i + k) : K) = -alt ((t : Int) + i + k) := fun i k => by
        rw [show ((t + 1 : Nat) : Int) + i + k = (t : Int) + i + k + 1 by push_cast; ring, alt_succ]
      have ep : ∀ i k, p.logical i k →
          S (t + 1 + 1) .ep i k = alt (((t + 1 : Nat) : Int) + i + k) * amp p e c (t + 1) i * s k := by
        intro i k hl
        by_cases hw : 1 ≤ i ∧ i ≤ (p.nr : Int) - 2 ∧ 1 ≤ k ∧ k ≤ (p.nz : Int) - 2
        · have y := ih.2 i k hw.1 hw.2.1 hw.2.2.1 hw.2.2.2
          rw [(stp i k hw.1 hw.2.1 hw.2.2.1 hw.2.2.2).1, ih.1 i k hl, al]
          show _ - p.dt / e * ((if t + 1 = 0 then j i k else 0) + _) = _
          rw [if_neg (by omega), zero_add, y]
          ring
        · exact wall (t + 1) (t + 1) i k hl hw
      refine ⟨ep, fun i k i1 i2 k1 k2 => ?_⟩
      have hl : ∀ a b : Int, i - 1 ≤ a → a ≤ i + 1 → k - 1 ≤ b → b ≤ k + 1 → p.logical a b := by
        intro a b _ _ _ _; unfold Par.logical; omega
      have y := ih.2 i k i1 i2 k1 k2
      rw [(stp i k i1 i2 k1 k2).2, row_curl hp s (amp p e c (t + 1)) (S (t + 1 + 1) .ep) ((t + 1 : Nat) : Int) i1
        (hs k k1 k2)
        (ep _ _ (hl _ _ (by omega) (by omega) (by omega) (by omega)))
        (ep _ _ (hl _ _ (by omega) (by omega) (by omega) (by omega)))
        (ep _ _ (hl _ _ (by omega) (by omega) (by omega) (by omega)))
        (ep _ _ (hl _ _ (by omega) (by omega) (by omega) (by omega)))
        (ep _ _ (hl _ _ (by omega) (by omega) (by omega) (by omega))), mul_sub, y]
      have a1 : amp p e c (t + 1 + 1) i =
          p.dt ^ 2 / (e * p.mu) * rowOp p c (amp p e c (t + 1)) i - 2 * amp p e c (t + 1) i - amp p e c t i := by
        show amp p e c (t + 2) i = _
        rw [amp]
        exact if_pos ⟨i1, i2⟩
      rw [a1, al]
      field_simp
      ring
  exact fun t => (inv t).1

end

/-! ### C135 -/

/-- **C135, what goes wrong.**  In a closed chamber (at least 3 x 3 cells, any sizes) with a time step above the given limit,
there is a current which flows in the first step only, after which the field in the row next to the axis grows for ever: after
`n` more steps each value is at least `2 n + 1` times as large as after the first. -/
theorem C135_grows (p : Par ℝ) (hp : p.Good) (hc : Closed p) (hr : 3 ≤ p.nr) (hz : 3 ≤ p.nz) (e : ℝ) (he : 0 < e)
    (h4 : 4 ≤ p.dt ^ 2 / (e * p.mu) * ((2 + 2 * Real.cos (Real.pi / ((p.nz : ℝ) - 1))) / p.dz ^ 2 + 2 / p.dr ^ 2)) :
    ∃ j : Int → Int → ℝ, ∃ S : Nat → Mem ℝ, (∀ t, wholeRun p (pulse e j) t = .ok (S t)) ∧
      (∀ k : Int, 1 ≤ k → k ≤ (p.nz : Int) - 2 → S 1 .ep 1 k ≠ 0) ∧
      ∀ (n : Nat) (k : Int), p.logical 1 k → (2 * (n : ℝ) + 1) * |S 1 .ep 1 k| ≤ |S (n + 1) .ep 1 k| := by
  set th := Real.pi / ((p.nz : ℝ) - 1) with hth
  have n1 : (2 : ℝ) ≤ (p.nz : ℝ) - 1 := by
    have : (3 : ℝ) ≤ (p.nz : ℝ) := by exact_mod_cast hz
    linarith
  have pi0 := Real.pi_pos
  set s : Int → ℝ := fun k => Real.sin ((k : ℝ) * th) with hs
  have s0 : s 0 = 0 := by simp [hs]
  have s1 : s ((p.nz : Int) - 1) = 0 := by
    have : (((p.nz : Int) - 1 : Int) : ℝ) * th = Real.pi := by
      rw [hth]; push_cast; field_simp
    simp only [hs, this, Real.sin_pi]
  have s2 : ∀ k : Int, 1 ≤ k → k ≤ (p.nz : Int) - 2 → s (k + 1) + s (k - 1) = 2 * Real.cos th * s k := by
    intro k _ _
    simp only [hs]
    push_cast
    rw [add_mul, sub_mul, one_mul, Real.sin_add, Real.sin_sub]
    ring
  obtain ⟨S, run, ep⟩ := run_alt hp hc hr he s s0 s1 s2
  refine ⟨_, S, run, fun k k1 k2 => ?_, fun n k hl => ?_⟩
  · have := ep 0 1 k (by have := hp.nr; unfold Par.logical; omega)
    rw [zero_add] at this
    rw [this]
    have sp : 0 < s k := by
      have kr : (1 : ℝ) ≤ (k : ℝ) := by exact_mod_cast k1
      have kr2 : (k : ℝ) ≤ (p.nz : ℝ) - 2 := by exact_mod_cast k2
      refine Real.sin_pos_of_pos_of_lt_pi (by positivity) ?_
      rw [hth, mul_div_assoc', div_lt_iff₀ (by linarith)]
      nlinarith
    have a0 : amp p e (Real.cos th) 0 1 = 1 := by unfold amp; rw [if_pos rfl]
    rw [a0, mul_one]
    refine mul_ne_zero ?_ sp.ne'
    unfold alt; split <;> norm_num
  · have e0 := ep 0 1 k hl
    rw [zero_add] at e0
    have ab : ∀ n : Int, |(alt n : ℝ)| = 1 := fun n => by unfold alt; split <;> norm_num
    have g := amp_one hp hr he h4 n
    have gp : 0 ≤ amp p e (Real.cos th) n 1 := (amp_grows hp hr he h4 n).1 1
    have a0 : amp p e (Real.cos th) 0 1 = 1 := by unfold amp; rw [if_pos rfl]
    rw [e0, ep n 1 k hl, abs_mul, abs_mul, abs_mul, abs_mul, ab, ab, a0, abs_one, abs_of_nonneg gp, one_mul, one_mul,
      one_mul]
    exact mul_le_mul_of_nonneg_right g (abs_nonneg _)

/-- The program accepts exactly these time steps. -/
theorem accepted_iff (cp cd : ℝ) (c : Limits.Conf) (h : ∃ m, Limits.check lightVel cp cd c = .ok m) :
    Accepted cp cd c ↔ lightVel * c.step ≤ c.dr ∧ lightVel * c.step ≤ c.dz ∧
      c.step ≤ 2 / Limits.plasmaFrequency cp (Limits.electrons c.species).1 / 100 := by
  have cl : 0 < lightVel := by unfold lightVel; norm_num
  have key : ∀ m, Limits.check lightVel cp cd c = .ok m → (Limits.Msg.timeStep ∉ m ↔
      lightVel * c.step ≤ c.dr ∧ lightVel * c.step ≤ c.dz ∧
      c.step ≤ 2 / Limits.plasmaFrequency cp (Limits.electrons c.species).1 / 100) := by
    intro m hm
    rw [Limits.C48_step_partial _ _ _ _ _ hm, not_or, not_or, not_lt, not_lt, not_lt, le_div_iff₀ cl, le_div_iff₀ cl,
      mul_comm]
  constructor
  · rintro ⟨m, h1, h2⟩
    exact (key m h1).1 h2
  · intro hx
    obtain ⟨m, h1⟩ := h
    exact ⟨m, h1, (key m h1).2 hx⟩

/-- **C135 (partial).**  If the program would accept even twice the time step, the electric fields of a closed chamber stay
bounded once no current flows, for every history of currents before and for every medium at least as dense as vacuum.
Missing: the steps between half and all of the largest accepted one, where it is false (`C135_fails`), other boundaries and
the particles. -/
theorem C135_half_partial (cp cd : ℝ) (c : Limits.Conf) (ha : Accepted cp cd { c with step := 2 * c.step }) (p : Par ℝ)
    (hp : p.Good) (hc : Closed p) (hcp : Configured c p) (eps : Int → Int → ℝ)
    (hee : ∀ i k, p.logical i k → epsilon0 ≤ eps i k) (src : Nat → Comp → Int → Int → ℝ) (he : ∀ t, src t .eps = eps)
    (hs : ∀ t i k, p.logical i k → 0 ≤ src t .sig i k) (t0 : Nat) (hq : Quiet src t0) :
    ∃ S : Nat → Mem ℝ, (∀ t, wholeRun p src t = .ok (S t)) ∧ ∃ B : ℝ, ∀ n, t0 ≤ n → ∀ i k, p.logical i k →
      S (n + 1) .er i k ^ 2 ≤ B ∧ S (n + 1) .ep i k ^ 2 ≤ B ∧ S (n + 1) .ez i k ^ 2 ≤ B := by
  have e0 : 0 < epsilon0 := by unfold epsilon0; norm_num
  refine C77_components p hp hc eps epsilon0 e0 hee src he hs t0 hq ?_
  obtain ⟨h1, h2, _⟩ := (accepted_iff cp cd _ ⟨_, ha.choose_spec.1⟩).1 ha
  simp only at h1 h2
  rw [← hcp.dr, ← hcp.dt] at h1
  rw [← hcp.dz, ← hcp.dt] at h2
  have dr := hp.dr
  have dz := hp.dz
  have dt := hp.dt
  have cl : 0 < lightVel := by unfold lightVel; norm_num
  have cm : 1 ≤ epsilon0 * magnConst * lightVel ^ 2 := by unfold epsilon0 magnConst lightVel; norm_num
  have em : 0 < epsilon0 * magnConst := by unfold epsilon0 magnConst; norm_num
  unfold courant
  rw [hcp.mu]
  have x1 : (lightVel * p.dt) ^ 2 / p.dr ^ 2 ≤ 1 / 4 := by
    rw [div_le_iff₀ (by positivity)]
    have : 0 < lightVel * p.dt := by positivity
    nlinarith
  have x2 : (lightVel * p.dt) ^ 2 / p.dz ^ 2 ≤ 1 / 4 := by
    rw [div_le_iff₀ (by positivity)]
    have : 0 < lightVel * p.dt := by positivity
    nlinarith
  have x3 : p.dt ^ 2 / (epsilon0 * magnConst) ≤ (lightVel * p.dt) ^ 2 := by
    rw [div_le_iff₀ em]
    have : 0 ≤ p.dt ^ 2 := by positivity
    calc p.dt ^ 2 = p.dt ^ 2 * 1 := by ring
      _ ≤ p.dt ^ 2 * (epsilon0 * magnConst * lightVel ^ 2) := by gcongr
      _ = _ := by ring
  calc p.dt ^ 2 / (epsilon0 * magnConst) * (2 / p.dr ^ 2 + 1 / p.dz ^ 2)
      ≤ (lightVel * p.dt) ^ 2 * (2 / p.dr ^ 2 + 1 / p.dz ^ 2) := by gcongr
    _ = 2 * ((lightVel * p.dt) ^ 2 / p.dr ^ 2) + (lightVel * p.dt) ^ 2 / p.dz ^ 2 := by ring
    _ < 1 := by linarith

/-- Where C135 fails: with square cells, every time step from nine tenths of the largest one that the program accepts without a
message up to that one makes the fields of an empty closed chamber (at least 3 x 4 cells) grow beyond all bounds after a single
pulse of current. -/
theorem C135_fails (cp cd : ℝ) (c : Limits.Conf) (ha : Accepted cp cd c) (p : Par ℝ) (hp : p.Good) (hc : Closed p)
    (hcp : Configured c p) (hr : 3 ≤ p.nr) (hz : 4 ≤ p.nz) (sq : c.dz = c.dr) (hs : 9 / 10 * c.dr ≤ lightVel * c.step) :
    ∃ j : Int → Int → ℝ, ∃ S : Nat → Mem ℝ, (∀ t, wholeRun p (pulse epsilon0 j) t = .ok (S t)) ∧
      ∀ B : ℝ, ∃ n i k, 1 ≤ n ∧ p.logical i k ∧ B < S (n + 1) .ep i k ^ 2 := by
  have e0 : 0 < epsilon0 := by unfold epsilon0; norm_num
  have dr := hp.dr
  have dt := hp.dt
  have d1 : p.dz = p.dr := by rw [hcp.dz, hcp.dr, sq]
  rw [← hcp.dr, ← hcp.dt] at hs
  have cl : 0 < lightVel := by unfold lightVel; norm_num
  have em : 0 < epsilon0 * magnConst := by unfold epsilon0 magnConst; norm_num
  have cm : epsilon0 * magnConst * lightVel ^ 2 ≤ 81 / 80 := by unfold epsilon0 magnConst lightVel; norm_num
  have pi0 := Real.pi_pos
  have nz1 : (3 : ℝ) ≤ (p.nz : ℝ) - 1 := by
    have : (4 : ℝ) ≤ (p.nz : ℝ) := by exact_mod_cast hz
    linarith
  have cs : 1 / 2 ≤ Real.cos (Real.pi / ((p.nz : ℝ) - 1)) := by
    rw [← Real.cos_pi_div_three]
    refine Real.cos_le_cos_of_nonneg_of_le_pi (by positivity) (by linarith) ?_
    exact div_le_div_of_nonneg_left pi0.le (by norm_num) nz1
  have t0 : 4 / 5 * p.dr ^ 2 ≤ p.dt ^ 2 / (epsilon0 * magnConst) := by
    rw [le_div_iff₀ em]
    have h1 : (9 / 10 * p.dr) ^ 2 ≤ (lightVel * p.dt) ^ 2 := pow_le_pow_left₀ (by positivity) hs 2
    have h2 : epsilon0 * magnConst * (lightVel * p.dt) ^ 2 ≤ 81 / 80 * p.dt ^ 2 := by
      have : 0 ≤ p.dt ^ 2 := by positivity
      calc epsilon0 * magnConst * (lightVel * p.dt) ^ 2 = epsilon0 * magnConst * lightVel ^ 2 * p.dt ^ 2 := by ring
        _ ≤ _ := by gcongr
    have h3 : epsilon0 * magnConst * (9 / 10 * p.dr) ^ 2 ≤ epsilon0 * magnConst * (lightVel * p.dt) ^ 2 := by gcongr
    nlinarith
  obtain ⟨j, S, run, nz, gr⟩ := C135_grows p hp hc hr (by omega) epsilon0 e0 (by
    rw [hcp.mu, d1, ← add_div, mul_div_assoc', le_div_iff₀ (by positivity)]
    have : 0 < p.dr ^ 2 := by positivity
    nlinarith)
  refine ⟨j, S, run, fun B => ?_⟩
  have hl : p.logical 1 1 := by unfold Par.logical; omega
  have a0 : 0 < |S 1 .ep 1 1| := abs_pos.2 (nz 1 le_rfl (by omega))
  obtain ⟨n, hn⟩ := exists_nat_gt ((|B| + 1) / |S 1 .ep 1 1|)
  refine ⟨n + 1, 1, 1, by omega, hl, ?_⟩
  have g := gr (n + 1) 1 hl
  rw [div_lt_iff₀ a0] at hn
  have n0 : (0 : ℝ) ≤ (n : ℝ) := by positivity
  have big : |B| + 1 < |S (n + 1 + 1) .ep 1 1| := by
    push_cast at g
    nlinarith
  have b0 := abs_nonneg B
  have b1 := le_abs_self B
  rw [← sq_abs]
  nlinarith

/-! ### The hypotheses are met -/

/-- A chamber of 5 x 6 cells of one millimetre with the largest time step that is accepted. -/
noncomputable def exTight : Par ℝ := ⟨1 / 1000, 1 / 1000, 1 / 1000 / lightVel, magnConst, 0, 5, 6, ⟨true, true, true, true⟩⟩

theorem exTight_good : exTight.Good := by
  have cl : 0 < lightVel := by unfold lightVel; norm_num
  refine ⟨?_, ?_, ?_, ?_, by decide, by decide, by decide, by decide, by decide, by decide, by decide⟩ <;>
    (unfold exTight; dsimp only)
  all_goals first | positivity | (unfold magnConst; norm_num)

theorem exTight_closed : Closed exTight := ⟨rfl, by decide, by decide, rfl, rfl, rfl, rfl⟩

/-- Its configuration, with the species of `Limits.exConf`. -/
noncomputable def exTightConf : Limits.Conf :=
  { Limits.exConf with
    dr := 1 / 1000, dz := 1 / 1000, step := 1 / 1000 / lightVel }

theorem exTight_configured : Configured exTightConf exTight := ⟨rfl, rfl, rfl, rfl⟩

theorem exTight_species : Limits.electrons exTightConf.species = (3, 1) := by
  have h1 : Limits.IsElectron Limits.exElectrons := Or.inr rfl
  have h2 : ¬ Limits.IsElectron Limits.exIons := by
    rintro (h | h)
    · exact absurd h (by simp only [Limits.exIons]; decide)
    · norm_num [Limits.exIons] at h
  rw [show exTightConf.species = [Limits.exElectrons, Limits.exIons] from rfl, Limits.electrons_pair _ _ h1 h2]
  norm_num [Limits.exElectrons]

theorem exTight_ok (step : ℝ) :
    ∃ m, Limits.check lightVel 56.3803 7433.944 { exTightConf with step := step } = .ok m := by
  have := (Limits.check_ok_iff _ _ _ _).1 Limits.exConf_ok
  rw [Limits.check_ok_iff]
  exact this

theorem exTight_accepted : Accepted 56.3803 7433.944 exTightConf := by
  refine (accepted_iff _ _ _ (exTight_ok _)).2 ⟨?_, ?_, ?_⟩
  · show lightVel * (1 / 1000 / lightVel) ≤ 1 / 1000
    unfold lightVel; norm_num
  · show lightVel * (1 / 1000 / lightVel) ≤ 1 / 1000
    unfold lightVel; norm_num
  · rw [exTight_species]
    show 1 / 1000 / lightVel ≤ _
    unfold lightVel Limits.plasmaFrequency
    have a : Real.sqrt 3 ≤ 2 := by rw [Real.sqrt_le_left (by norm_num)]; norm_num
    have b : 0 < Real.sqrt 3 := Real.sqrt_pos.2 (by norm_num)
    rw [div_div, div_div, div_le_div_iff₀ (by norm_num) (by positivity)]
    linarith

/-- The fields of the example grow beyond all bounds. -/
example : ∃ j : Int → Int → ℝ, ∃ S : Nat → Mem ℝ, (∀ t, wholeRun exTight (pulse epsilon0 j) t = .ok (S t)) ∧
    ∀ B : ℝ, ∃ n i k, 1 ≤ n ∧ exTight.logical i k ∧ B < S (n + 1) .ep i k ^ 2 :=
  C135_fails _ _ exTightConf exTight_accepted exTight exTight_good exTight_closed exTight_configured (by decide) (by decide) rfl
    (by
      show 9 / 10 * (1 / 1000) ≤ lightVel * (1 / 1000 / lightVel)
      unfold lightVel; norm_num)

/-- With half of that time step the partial theorem applies. -/
example : Accepted 56.3803 7433.944
    { ({ exTightConf with step := exTightConf.step / 2 } : Limits.Conf) with step := 2 * (exTightConf.step / 2) } := by
  have e : 2 * (exTightConf.step / 2) = exTightConf.step := by ring
  rw [e]
  exact exTight_accepted

end Yee
end Pico
