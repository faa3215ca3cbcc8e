import Verif.Spec.Scatter
import Verif.Spec.Collide
import Mathlib.Tactic.Ring
import Mathlib.Tactic.FieldSimp
import Mathlib.Tactic.Linarith
import Mathlib.Tactic.LinearCombination
import Mathlib.Tactic.Positivity
import Mathlib.Tactic.NormNum

/-! Density, temperature, Debye length and scattering rate of the collision step. -/

set_option linter.unusedSimpArgs false
set_option linter.unusedVariables false
set_option linter.unusedSectionVars false

namespace Pico
namespace Coll

theorem foldl_sum {α : Type _} (f : α → ℝ) (l : List α) : l.foldl (fun s p => s + f p) 0 = (l.map f).sum := by
  have : ∀ (l : List α) (s : ℝ), l.foldl (fun s p => s + f p) s = s + (l.map f).sum := by
    intro l
    induction l with
    | nil => intro s; simp
    | cons a l ih => intro s; rw [List.foldl_cons, ih, List.map_cons, List.sum_cons]; ring
  rw [this, zero_add]

theorem amountTot_eq (l : List (Part ℝ)) : amountTot l = realAmount l := by
  unfold amountTot realAmount; exact foldl_sum _ l

theorem energyTot_eq (mass : ℝ) (l : List (Part ℝ)) :
    energyTot mass l = (l.map fun p => p.weight * mass * (p.velR * p.velR + p.velPhi * p.velPhi + p.velZ * p.velZ) / 2).sum := by
  unfold energyTot; exact foldl_sum _ l

theorem amount_nonneg (l : List (Part ℝ)) (h : ∀ p ∈ l, 0 < p.weight) : 0 ≤ realAmount l :=
  List.sum_nonneg (by simp only [List.mem_map]; rintro _ ⟨p, hp, rfl⟩; exact (h p hp).le)

theorem amount_pos (l : List (Part ℝ)) (h : ∀ p ∈ l, 0 < p.weight) (hl : l ≠ []) : 0 < realAmount l := by
  cases l with
  | nil => exact absurd rfl hl
  | cons a l =>
    unfold realAmount
    rw [List.map_cons, List.sum_cons]
    have := amount_nonneg l (fun p hp => h p (by simp [hp]))
    unfold realAmount at this
    linarith [h a (by simp)]

/-! ### C83 -/

/-- C83, in a domain that begins at the axis: the density is the number of real particles per volume of the ring cell. -/
theorem C83_axis_partial (k : Const) (dr dz : ℝ) (i : Nat) (l : List (Part ℝ)) :
    cellDensity k dr dz 0 i l = realAmount l / ringVolume k dr dz i := by
  unfold cellDensity ringVolume
  rw [amountTot_eq]
  congr 1
  push_cast
  ring

/-- C83 fails in every other domain: the density of a cell with particles is too large, by the ratio of
`2 (i + r0) + 1` and `2 i + r0 + 1`. -/
theorem C83_shift_fails (k : Const) (hk : k.Good) (dr dz : ℝ) (hr : 0 < dr) (hz : 0 < dz) (r0 i : Nat) (h0 : 0 < r0)
    (l : List (Part ℝ)) (hw : ∀ p ∈ l, 0 < p.weight) (hl : l ≠ []) :
    cellDensity k dr dz r0 i l = realAmount l / ringVolume k dr dz (r0 + i) * ((2 * (r0 + i) + 1) / (2 * i + r0 + 1)) ∧
    realAmount l / ringVolume k dr dz (r0 + i) < cellDensity k dr dz r0 i l := by
  have A := amount_pos l hw hl
  have P := hk.pi
  have r0' : (0 : ℝ) < r0 := by exact_mod_cast h0
  have i0 : (0 : ℝ) ≤ i := by positivity
  have v : ringVolume k dr dz (r0 + i) = k.pi * dz * dr * dr * (2 * (r0 + i) + 1) := by
    unfold ringVolume; push_cast; ring
  have e : cellDensity k dr dz r0 i l = realAmount l / ringVolume k dr dz (r0 + i) * ((2 * (r0 + i) + 1) / (2 * i + r0 + 1)) := by
    rw [v]
    unfold cellDensity
    rw [amountTot_eq]
    have d1 : k.pi * dz * dr * dr ≠ 0 := by positivity
    have d2 : (2 * (i : ℝ) + r0 + 1) ≠ 0 := by positivity
    have d3 : (2 * ((r0 : ℝ) + i) + 1) ≠ 0 := by positivity
    field_simp
  refine ⟨e, ?_⟩
  rw [e]
  have vp : 0 < ringVolume k dr dz (r0 + i) := by rw [v]; positivity
  have q : 0 < realAmount l / ringVolume k dr dz (r0 + i) := div_pos A vp
  have t : 1 < (2 * ((r0 : ℝ) + i) + 1) / (2 * i + r0 + 1) := by
    rw [lt_div_iff₀ (by positivity)]
    linarith
  exact lt_mul_of_one_lt_right q t

/-! ### C84 -/

theorem sum_shift (f g : Part ℝ → ℝ) (V : ℝ) (l : List (Part ℝ)) :
    (l.map fun p => g p * (f p - V) ^ 2).sum =
      (l.map fun p => g p * f p ^ 2).sum - 2 * V * (l.map fun p => g p * f p).sum + V ^ 2 * (l.map g).sum := by
  induction l with
  | nil => simp
  | cons a l ih =>
    simp only [List.map_cons, List.sum_cons]
    rw [ih]
    ring

theorem sum_three (f g h : Part ℝ → ℝ) (c : ℝ) (w : Part ℝ → ℝ) (l : List (Part ℝ)) :
    (l.map fun p => w p * (c * (f p + g p + h p))).sum =
      c * ((l.map fun p => w p * f p).sum + (l.map fun p => w p * g p).sum + (l.map fun p => w p * h p).sum) := by
  induction l with
  | nil => simp
  | cons a l ih =>
    simp only [List.map_cons, List.sum_cons]
    rw [ih]
    ring

/-- C84, what the code computes: the temperature is half as large again, plus the whole energy of the mean motion. -/
theorem C84_temperature_partial (k : Const) (mass : ℝ) (l : List (Part ℝ)) (hw : ∀ p ∈ l, 0 < p.weight) (hl : l ≠ []) :
    cellTemperature k mass l = 3 / 2 * trueTemperature k mass l +
      mass / 2 * ((meanVel l).x ^ 2 + (meanVel l).y ^ 2 + (meanVel l).z ^ 2) * k.eInv := by
  have A := (amount_pos l hw hl).ne'
  unfold cellTemperature trueTemperature
  rw [amountTot_eq, energyTot_eq]
  have e1 : (l.map fun p => p.weight * mass * (p.velR * p.velR + p.velPhi * p.velPhi + p.velZ * p.velZ) / 2).sum =
      mass / 2 * ((l.map fun p => p.weight * p.velR ^ 2).sum + (l.map fun p => p.weight * p.velPhi ^ 2).sum +
        (l.map fun p => p.weight * p.velZ ^ 2).sum) := by
    rw [← sum_three]
    congr 1
    apply List.map_congr_left
    intro p _
    ring
  rw [e1, sum_three (fun p => (p.velR - (meanVel l).x) ^ 2) (fun p => (p.velPhi - (meanVel l).y) ^ 2)
    (fun p => (p.velZ - (meanVel l).z) ^ 2) (mass / 2) (fun p => p.weight) l, sum_shift, sum_shift, sum_shift]
  have m1 : (l.map fun p => p.weight * p.velR).sum = (meanVel l).x * realAmount l := by
    unfold meanVel; dsimp only; rw [div_mul_cancel₀ _ A]
  have m2 : (l.map fun p => p.weight * p.velPhi).sum = (meanVel l).y * realAmount l := by
    unfold meanVel; dsimp only; rw [div_mul_cancel₀ _ A]
  have m3 : (l.map fun p => p.weight * p.velZ).sum = (meanVel l).z * realAmount l := by
    unfold meanVel; dsimp only; rw [div_mul_cancel₀ _ A]
  have m0 : (l.map fun p => p.weight).sum = realAmount l := rfl
  rw [m1, m2, m3, m0]
  field_simp
  ring

theorem thermal_nonneg (k : Const) (hk : k.Good) (mass : ℝ) (hm : 0 < mass) (l : List (Part ℝ)) (hw : ∀ p ∈ l, 0 < p.weight) :
    0 ≤ trueTemperature k mass l := by
  unfold trueTemperature
  have := hk.eInv
  have := amount_nonneg l hw
  have : 0 ≤ (l.map fun p => p.weight * (mass / 2 * ((p.velR - (meanVel l).x) ^ 2 + (p.velPhi - (meanVel l).y) ^ 2 +
      (p.velZ - (meanVel l).z) ^ 2))).sum := by
    apply List.sum_nonneg
    simp only [List.mem_map]
    rintro _ ⟨p, hp, rfl⟩
    have := hw p hp
    positivity
  positivity

theorem energy_pos (mass : ℝ) (hm : 0 < mass) (l : List (Part ℝ)) (hw : ∀ p ∈ l, 0 < p.weight) (p : Part ℝ) (hp : p ∈ l)
    (hv : vel p ≠ ⟨0, 0, 0⟩) : 0 < energyTot mass l := by
  rw [energyTot_eq]
  have term : ∀ q ∈ l, 0 ≤ q.weight * mass * (q.velR * q.velR + q.velPhi * q.velPhi + q.velZ * q.velZ) / 2 := by
    intro q hq
    have := hw q hq
    have := mul_self_nonneg q.velR
    have := mul_self_nonneg q.velPhi
    have := mul_self_nonneg q.velZ
    positivity
  have one : 0 < p.weight * mass * (p.velR * p.velR + p.velPhi * p.velPhi + p.velZ * p.velZ) / 2 := by
    have := hw p hp
    have h1 := mul_self_nonneg p.velR
    have h2 := mul_self_nonneg p.velPhi
    have h3 := mul_self_nonneg p.velZ
    have : 0 < p.velR * p.velR + p.velPhi * p.velPhi + p.velZ * p.velZ := by
      by_contra n
      apply hv
      have z1 : p.velR * p.velR = 0 := by linarith
      have z2 : p.velPhi * p.velPhi = 0 := by linarith
      have z3 : p.velZ * p.velZ = 0 := by linarith
      unfold vel
      rw [mul_self_eq_zero.mp z1, mul_self_eq_zero.mp z2, mul_self_eq_zero.mp z3]
    positivity
  have := List.single_le_sum (l := l.map fun p => p.weight * mass * (p.velR * p.velR + p.velPhi * p.velPhi + p.velZ * p.velZ) / 2)
    (by simp only [List.mem_map]; rintro _ ⟨q, hq, rfl⟩; exact term q hq) _ (List.mem_map.mpr ⟨p, hp, rfl⟩)
  exact lt_of_lt_of_le one this

/-- C84 fails for every cell in which something moves: the temperature is too high. -/
theorem C84_fails (k : Const) (hk : k.Good) (mass : ℝ) (hm : 0 < mass) (l : List (Part ℝ)) (hw : ∀ p ∈ l, 0 < p.weight)
    (p : Part ℝ) (hp : p ∈ l) (hv : vel p ≠ ⟨0, 0, 0⟩) : trueTemperature k mass l < cellTemperature k mass l := by
  have hl : l ≠ [] := List.ne_nil_of_mem hp
  have e := C84_temperature_partial k mass l hw hl
  have t0 := thermal_nonneg k hk mass hm l hw
  have A := amount_pos l hw hl
  have pos : 0 < cellTemperature k mass l := by
    unfold cellTemperature
    rw [amountTot_eq]
    exact mul_pos (div_pos (energy_pos mass hm l hw p hp hv) A) hk.eInv
  have d0 : 0 ≤ mass / 2 * ((meanVel l).x ^ 2 + (meanVel l).y ^ 2 + (meanVel l).z ^ 2) * k.eInv := by
    have := hk.eInv; positivity
  linarith

/-- C84 fails: particles that all move with the same velocity have no temperature, but the code finds one. -/
theorem C84_drift_fails (k : Const) (hk : k.Good) (mass : ℝ) (hm : 0 < mass) (l : List (Part ℝ)) (hw : ∀ p ∈ l, 0 < p.weight)
    (hl : l ≠ []) (v : Vec3 ℝ) (hv : v ≠ ⟨0, 0, 0⟩) (hall : ∀ p ∈ l, vel p = v) :
    trueTemperature k mass l = 0 ∧ 0 < cellTemperature k mass l := by
  have A := (amount_pos l hw hl).ne'
  have sum : ∀ (f : Part ℝ → ℝ) (a : ℝ), (∀ p ∈ l, f p = a) → (l.map fun p => p.weight * f p).sum / realAmount l = a := by
    intro f a h
    have : (l.map fun p => p.weight * f p).sum = a * realAmount l := by
      unfold realAmount
      rw [← List.sum_map_mul_left]
      congr 1
      apply List.map_congr_left
      intro p hp
      rw [h p hp]
      ring
    rw [this, mul_div_cancel_right₀ _ A]
  have mean : meanVel l = v := by
    unfold meanVel
    rw [sum (fun p => p.velR) v.x (fun p hp => by rw [← hall p hp]; rfl),
      sum (fun p => p.velPhi) v.y (fun p hp => by rw [← hall p hp]; rfl),
      sum (fun p => p.velZ) v.z (fun p hp => by rw [← hall p hp]; rfl)]
  have t : trueTemperature k mass l = 0 := by
    unfold trueTemperature
    rw [mean]
    have : (l.map fun p => p.weight * (mass / 2 * ((p.velR - v.x) ^ 2 + (p.velPhi - v.y) ^ 2 + (p.velZ - v.z) ^ 2))).sum = 0 := by
      apply List.sum_eq_zero
      simp only [List.mem_map]
      rintro _ ⟨p, hp, rfl⟩
      have := hall p hp
      rw [← this]
      unfold vel
      simp
    rw [this]
    simp
  obtain ⟨p, hp⟩ := List.exists_mem_of_ne_nil l hl
  refine ⟨t, ?_⟩
  have := C84_fails k hk mass hm l hw p hp (by rw [hall p hp]; exact hv)
  linarith

/-! ### C85 -/

/-- C85: whatever the macroparticles of a cell (weights positive), the collision step does not stop the program there; if it
does not skip the cell the Debye length is positive and shorter than the Debye length of either kind alone. -/
theorem C85_debye (k : Const) (hk : k.Good) (dr dz massEl massIon : ℝ) (hr : 0 < dr) (hz : 0 < dz) (he : 0 < massEl)
    (hi : 0 < massIon) (r0 i : Nat) (els ions : List (Part ℝ)) (h1 : ∀ p ∈ els, 0 < p.weight) (h2 : ∀ p ∈ ions, 0 < p.weight) :
    (cellDebye k dr dz massEl massIon r0 i els ions = .ok none ∧
      ((∀ p ∈ els, vel p = ⟨0, 0, 0⟩) ∨ (∀ p ∈ ions, vel p = ⟨0, 0, 0⟩))) ∨
    ∃ d, cellDebye k dr dz massEl massIon r0 i els ions = .ok (some d) ∧ 0 < d ∧
      d < k.debye1 * Real.sqrt (cellTemperature k massEl els / cellDensity k dr dz r0 i els) ∧
      d < k.debye1 * Real.sqrt (cellTemperature k massIon ions / cellDensity k dr dz r0 i ions) := by
  by_cases n : normal massEl massIon els ions = true
  · right
    unfold normal at n
    simp only [decide_eq_true_eq] at n
    obtain ⟨n1, n2, n3, n4⟩ := n
    have vol : 0 < k.pi * dz * dr * dr * (2 * (i : ℝ) + r0 + 1) := by have := hk.pi; positivity
    have enn : ∀ (m : ℝ) (l : List (Part ℝ)), 0 < m → (∀ p ∈ l, 0 < p.weight) → 0 ≤ energyTot m l := by
      intro m l hm hw
      rw [energyTot_eq]
      apply List.sum_nonneg
      simp only [List.mem_map]
      rintro _ ⟨q, hq, rfl⟩
      have := hw q hq
      have := mul_self_nonneg q.velR
      have := mul_self_nonneg q.velPhi
      have := mul_self_nonneg q.velZ
      positivity
    have a1 : 0 < amountTot els := lt_of_le_of_ne (by rw [amountTot_eq]; exact amount_nonneg _ h1) (Ne.symm n3)
    have a2 : 0 < amountTot ions := lt_of_le_of_ne (by rw [amountTot_eq]; exact amount_nonneg _ h2) (Ne.symm n1)
    have e1 := lt_of_le_of_ne (enn _ _ he h1) (Ne.symm n4)
    have e2 := lt_of_le_of_ne (enn _ _ hi h2) (Ne.symm n2)
    have d1 : 0 < cellDensity k dr dz r0 i els := div_pos a1 vol
    have d2 : 0 < cellDensity k dr dz r0 i ions := div_pos a2 vol
    have t1 : 0 < cellTemperature k massEl els := mul_pos (div_pos e1 a1) hk.eInv
    have t2 : 0 < cellTemperature k massIon ions := mul_pos (div_pos e2 a2) hk.eInv
    have nn : normal massEl massIon els ions = true := by unfold normal; simp only [decide_eq_true_eq]; exact ⟨n1, n2, n3, n4⟩
    have D := hk.debye1
    set ne := cellDensity k dr dz r0 i els
    set ni := cellDensity k dr dz r0 i ions
    set te := cellTemperature k massEl els
    set ti := cellTemperature k massIon ions
    refine ⟨k.debye1 / Real.sqrt (ne / te + ni / ti), ?_, ?_, ?_, ?_⟩
    · unfold cellDebye debyeLength
      rw [if_pos nn, if_neg (not_le.mpr d1), if_neg (not_le.mpr d2)]
      rfl
    · exact div_pos D (Real.sqrt_pos.mpr (by positivity))
    · rw [div_eq_mul_inv, ← Real.sqrt_inv]
      apply mul_lt_mul_of_pos_left _ D
      apply Real.sqrt_lt_sqrt (by positivity)
      rw [← inv_div ne te]
      apply inv_strictAnti₀ (by positivity)
      have : 0 < ni / ti := by positivity
      linarith
    · rw [div_eq_mul_inv, ← Real.sqrt_inv]
      apply mul_lt_mul_of_pos_left _ D
      apply Real.sqrt_lt_sqrt (by positivity)
      rw [← inv_div ni ti]
      apply inv_strictAnti₀ (by positivity)
      have : 0 < ne / te := by positivity
      linarith
  · left
    refine ⟨by unfold cellDebye; rw [if_neg n], ?_⟩
    by_contra c
    push Not at c
    obtain ⟨⟨p, hp, vp⟩, q, hq, vq⟩ := c
    apply n
    unfold normal
    simp only [decide_eq_true_eq]
    refine ⟨?_, (energy_pos _ hi _ h2 q hq vq).ne', ?_, (energy_pos _ he _ h1 p hp vp).ne'⟩
    · rw [amountTot_eq]; exact (amount_pos _ h2 (List.ne_nil_of_mem hq)).ne'
    · rw [amountTot_eq]; exact (amount_pos _ h1 (List.ne_nil_of_mem hp)).ne'

/-! ### C86 -/

/-- The Coulomb logarithm is at least two and does not depend on the order of the pair. -/
theorem C86_log (k : Const) (ma mb debye v : ℝ) :
    2 ≤ coulombLog k ma mb debye v ∧ coulombLog k ma mb debye v = coulombLog k mb ma debye v := by
  unfold coulombLog
  exact ⟨le_max_left _ _, by rw [mul_comm ma mb, add_comm ma mb]⟩

/-- Its value is the logarithm of the Debye length over the de Broglie length of the relative motion of the reduced mass,
unless that is below two. -/
theorem C86_log_value (k : Const) (hk : k.Good) {ma mb debye v : ℝ} (ha : 0 < ma) (hb : 0 < mb) (hd : 0 < debye) (hv : 0 < v) :
    Real.exp (coulombLog k ma mb debye v) = max (Real.exp 2) (debye / (k.hbar / (ma * mb / (ma + mb) * v))) := by
  have h := hk.hbar
  have e : debye * (ma * mb / (ma + mb)) * v / k.hbar = debye / (k.hbar / (ma * mb / (ma + mb) * v)) := by
    field_simp
  unfold coulombLog
  rw [Real.exp_monotone.map_max, Real.exp_log (by positivity), e]

theorem taVariance_eq (k : Const) (dt ma mb qa qb na nb debye u : ℝ) :
    taVariance k dt ma mb qa qb na nb debye u =
      coulombSpread k qa qb (min na nb) (coulombLog k ma mb debye u) (ma * mb / (ma + mb)) u dt := by
  unfold taVariance coulombSpread
  dsimp only
  rw [mul_pow]

theorem taVariance_swap (k : Const) (dt ma mb qa qb na nb debye u : ℝ) :
    taVariance k dt ma mb qa qb na nb debye u = taVariance k dt mb ma qb qa nb na debye u := by
  rw [taVariance_eq, taVariance_eq, (C86_log k ma mb debye u).2, min_comm, mul_comm ma mb, add_comm ma mb]
  unfold coulombSpread
  rw [mul_comm qa qb]

/-- C86 for TA77S: a pair of charged particles that do not move together is deflected by the angle whose half has the tangent
`sqrt(spread) * n`, with the standard normal number `n` and the spread of the theory for the lower of the two densities. -/
theorem C86_TA77S_partial (k : Const) (hk : k.Good) {dt ma mb qa qb na nb debye n phi dzeta : ℝ} {pa pb : Part ℝ} (hdt : 0 < dt)
    (hma : 0 < ma) (hmb : 0 < mb) (hqa : qa ≠ 0) (hqb : qb ≠ 0) (hna : 0 < na) (hnb : 0 < nb) (hwa : 0 < pa.weight)
    (hwb : 0 < pb.weight) (hv : speedBetween (vel pa) (vel pb) ≠ 0) :
    let u := speedBetween (vel pa) (vel pb)
    let L := coulombLog k ma mb debye u
    0 < coulombSpread k qa qb (min na nb) L (ma * mb / (ma + mb)) u dt ∧
    collideTAFull k dt ma mb qa qb na nb debye n phi dzeta pa pb =
      collideTA k.pi ma mb (Real.sqrt (coulombSpread k qa qb (min na nb) L (ma * mb / (ma + mb)) u dt) * n) phi dzeta pa pb := by
  intro u L
  have u0 : 0 < u := lt_of_le_of_ne (Real.sqrt_nonneg _) (Ne.symm hv)
  have L2 : 2 ≤ L := (C86_log k ma mb debye u).1
  have pos : 0 < coulombSpread k qa qb (min na nb) L (ma * mb / (ma + mb)) u dt := by
    unfold coulombSpread
    have : 0 < min na nb := lt_min hna hnb
    have : 0 < L := by linarith
    have := hk.pi; have := hk.eps
    have : 0 < (qa * qb) ^ 2 := by have := mul_ne_zero hqa hqb; positivity
    positivity
  refine ⟨pos, ?_⟩
  unfold collideTAFull
  have nz : ¬ (pb.weight = 0 ∨ pa.weight = 0 ∨ ma = 0 ∨ mb = 0 ∨ ma + mb = 0) := by
    rintro (h | h | h | h | h) <;> linarith
  rw [if_neg nz]
  dsimp only
  rw [if_neg hv, ← taVariance_swap k dt ma mb qa qb, ite_self, taVariance_eq]
  unfold normalDraw
  rw [if_pos (Real.sqrt_pos.mpr pos), Res.ok_bind]

/-- C86 fails for neutral particles: the standard deviation is zero, which the random number generator of the library does
not allow. -/
theorem C86_neutral_fails (k : Const) {dt ma mb qa qb na nb debye n phi dzeta : ℝ} {pa pb : Part ℝ}
    (hma : 0 < ma) (hmb : 0 < mb) (hq : qa = 0 ∨ qb = 0) (hwa : 0 < pa.weight)
    (hwb : 0 < pb.weight) (hv : speedBetween (vel pa) (vel pb) ≠ 0) :
    collideTAFull k dt ma mb qa qb na nb debye n phi dzeta pa pb = .ub := by
  unfold collideTAFull
  have nz : ¬ (pb.weight = 0 ∨ pa.weight = 0 ∨ ma = 0 ∨ mb = 0 ∨ ma + mb = 0) := by
    rintro (h | h | h | h | h) <;> linarith
  rw [if_neg nz]
  dsimp only
  rw [if_neg hv, ← taVariance_swap k dt ma mb qa qb, ite_self, taVariance_eq]
  have z : coulombSpread k qa qb (min na nb) (coulombLog k ma mb debye (speedBetween (vel pa) (vel pb))) (ma * mb / (ma + mb))
      (speedBetween (vel pa) (vel pb)) dt = 0 := by
    unfold coulombSpread
    rcases hq with h | h <;> rw [h] <;> simp
  rw [z, Real.sqrt_zero]
  unfold normalDraw
  rw [if_neg (lt_irrefl _)]
  rfl

theorem taCore_pair (pi ma mb delta phi dzeta : ℝ) (pa pb : Part ℝ) (hma : 0 < ma) (hmb : 0 < mb) (hwa : 0 < pa.weight)
    (hwb : 0 < pb.weight) (hne : pa.weight ≠ pb.weight) {qa qb : Part ℝ}
    (h : collideTA pi ma mb delta phi dzeta pa pb = .ok (qa, qb)) : collideTA pi mb ma delta phi dzeta pb pa = .ok (qb, qa) := by
  unfold collideTA at h ⊢
  have n1 : ¬ (pb.weight = 0 ∨ pa.weight = 0 ∨ ma = 0 ∨ mb = 0 ∨ ma + mb = 0) := by
    rintro (h | h | h | h | h) <;> linarith
  have n2 : ¬ (pa.weight = 0 ∨ pb.weight = 0 ∨ mb = 0 ∨ ma = 0 ∨ mb + ma = 0) := by
    rintro (h | h | h | h | h) <;> linarith
  rw [if_neg n1] at h
  rw [if_neg n2]
  dsimp only at h ⊢
  rcases lt_or_gt_of_ne hne with l | l
  · have c1 : pa.weight / pb.weight ≤ 1 := (div_le_one hwb).mpr l.le
    have c2 : ¬ pb.weight / pa.weight ≤ 1 := by rw [div_le_one hwa]; exact not_le.mpr l
    rw [if_pos c1] at h
    rw [if_neg c2, one_div_div]
    cases h
    rfl
  · have c1 : ¬ pa.weight / pb.weight ≤ 1 := by rw [div_le_one hwb]; exact not_le.mpr l
    have c2 : pb.weight / pa.weight ≤ 1 := (div_le_one hwa).mpr l.le
    rw [if_neg c1, one_div_div] at h
    rw [if_pos c2]
    cases h
    rfl

/-- C86 for TA77S: which of two particles with different weights is named first makes no difference. -/
theorem C86_order_partial (k : Const) {dt ma mb qa qb na nb debye n phi dzeta : ℝ} {pa pb sa sb : Part ℝ}
    (hma : 0 < ma) (hmb : 0 < mb) (hwa : 0 < pa.weight) (hwb : 0 < pb.weight) (hne : pa.weight ≠ pb.weight)
    (h : collideTAFull k dt ma mb qa qb na nb debye n phi dzeta pa pb = .ok (sa, sb)) :
    collideTAFull k dt mb ma qb qa nb na debye n phi dzeta pb pa = .ok (sb, sa) := by
  have sp : speedBetween (vel pb) (vel pa) = speedBetween (vel pa) (vel pb) := by
    unfold speedBetween
    congr 1
    ring
  unfold collideTAFull at h ⊢
  have n1 : ¬ (pb.weight = 0 ∨ pa.weight = 0 ∨ ma = 0 ∨ mb = 0 ∨ ma + mb = 0) := by
    rintro (h | h | h | h | h) <;> linarith
  have n2 : ¬ (pa.weight = 0 ∨ pb.weight = 0 ∨ mb = 0 ∨ ma = 0 ∨ mb + ma = 0) := by
    rintro (h | h | h | h | h) <;> linarith
  rw [if_neg n1] at h
  rw [if_neg n2]
  dsimp only at h ⊢
  rw [sp]
  by_cases z : speedBetween (vel pa) (vel pb) = 0
  · rw [if_pos z] at h ⊢
    cases h
    rfl
  · rw [if_neg z] at h ⊢
    rw [← taVariance_swap k dt ma mb qa qb, ite_self] at h
    rw [← taVariance_swap k dt ma mb qa qb, ite_self]
    unfold normalDraw at h ⊢
    split at h
    · next c =>
      rw [if_pos c]
      rw [Res.ok_bind] at h ⊢
      exact taCore_pair _ _ _ _ _ _ _ _ hma hmb hwa hwb hne h
    · exact absurd h nofun

/-- C86 for P12 and slow particles: twice the spread of TA77S (its mean of `1 - cos`) if both kinds have the same density. -/
theorem C86_P12_partial (k : Const) (hk : k.Good) {dt ma mb qa qb n debye v : ℝ} (hma : 0 < ma) (hmb : 0 < mb) (hn : 0 < n) (hv : 0 < v) :
    p12Slow k dt ma mb qa qb n n debye v = 2 * taVariance k dt ma mb qa qb n n debye v := by
  rw [taVariance_eq]
  unfold p12Slow coulombSpread
  dsimp only
  rw [min_self, mul_div_assoc n n n, div_self hn.ne', mul_one]
  have := hk.pi.ne'; have := hk.eps.ne'
  have : ma + mb ≠ 0 := by positivity
  field_simp
  ring

/-- C86 fails for P12 if the densities differ: the larger density is used instead of the smaller one. -/
theorem C86_P12_density_fails (k : Const) (hk : k.Good) {dt ma mb qa qb na nb debye v : ℝ} (hdt : 0 < dt) (hma : 0 < ma) (hmb : 0 < mb)
    (hqa : qa ≠ 0) (hqb : qb ≠ 0) (hna : 0 < na) (hnb : 0 < nb) (hne : na ≠ nb) (hv : 0 < v) :
    p12Slow k dt ma mb qa qb na nb debye v = 2 * taVariance k dt ma mb qa qb na nb debye v * (max na nb / min na nb) ∧
    2 * taVariance k dt ma mb qa qb na nb debye v < p12Slow k dt ma mb qa qb na nb debye v := by
  have mn : 0 < min na nb := lt_min hna hnb
  have e : p12Slow k dt ma mb qa qb na nb debye v = 2 * taVariance k dt ma mb qa qb na nb debye v * (max na nb / min na nb) := by
    rw [taVariance_eq]
    unfold p12Slow coulombSpread
    dsimp only
    rw [← min_mul_max na nb]
    have := hk.pi.ne'; have := hk.eps.ne'; have := mn.ne'
    have : ma + mb ≠ 0 := by positivity
    field_simp
    ring
  refine ⟨e, ?_⟩
  rw [e]
  have pos : 0 < taVariance k dt ma mb qa qb na nb debye v := by
    rw [taVariance_eq]
    unfold coulombSpread
    have L2 := (C86_log k ma mb debye v).1
    have : 0 < coulombLog k ma mb debye v := by linarith
    have := hk.pi; have := hk.eps
    have : 0 < (qa * qb) ^ 2 := by have := mul_ne_zero hqa hqb; positivity
    positivity
  apply lt_mul_of_one_lt_right (by positivity)
  rw [lt_div_iff₀ mn, one_mul]
  exact min_lt_max.mpr hne

/-- C86 fails for SK98: for the same relative speed the spread is too small, for an electron and an ion by the square of the
ratio of the masses; it also depends on which of the two is heavier in weight. -/
theorem C86_SK98_fails (k : Const) (hk : k.Good) {dt ma mb qa qb na nb debye gamma v : ℝ} (hdt : 0 < dt) (hma : 0 < ma) (hmb : 0 < mb)
    (hqa : qa ≠ 0) (hqb : qb ≠ 0) (hna : 0 < na) (hnb : 0 < nb) (hv : 0 < v) (hg : 1 ≤ gamma) :
    skVariance k dt ma mb qa qb na nb debye gamma v =
      taVariance k dt ma mb qa qb na nb debye v * (ma / ((ma + mb) * gamma)) ^ 2 ∧
    skVariance k dt ma mb qa qb na nb debye gamma v < taVariance k dt ma mb qa qb na nb debye v := by
  have g0 : 0 < gamma := by linarith
  have e : skVariance k dt ma mb qa qb na nb debye gamma v =
      taVariance k dt ma mb qa qb na nb debye v * (ma / ((ma + mb) * gamma)) ^ 2 := by
    rw [taVariance_eq]
    unfold skVariance collFrequency coulombSpread
    have := hk.pi.ne'; have := hk.eps.ne'
    have : ma + mb ≠ 0 := by positivity
    field_simp
  refine ⟨e, ?_⟩
  rw [e]
  have pos : 0 < taVariance k dt ma mb qa qb na nb debye v := by
    rw [taVariance_eq]
    unfold coulombSpread
    have L2 := (C86_log k ma mb debye v).1
    have : 0 < coulombLog k ma mb debye v := by linarith
    have : 0 < min na nb := lt_min hna hnb
    have := hk.pi; have := hk.eps
    have : 0 < (qa * qb) ^ 2 := by have := mul_ne_zero hqa hqb; positivity
    positivity
  apply mul_lt_of_lt_one_right pos
  apply pow_lt_one₀ (by positivity) _ two_ne_zero
  rw [div_lt_one (by positivity)]
  nlinarith

/-- C86 for P12 and fast particles: the published parameter, with the density `na * nb / min na nb` and multiplied by the ratio
of the momentum in the laboratory to that in the centre of mass frame; so it is the published one exactly if these momenta
have the same length. -/
theorem C86_P12_fast_partial (k : Const) {dt ma mb qa qb na nb L ga gb gaCm gbCm gcm p : ℝ} (hp : p ≠ 0) (pa : Vec3 ℝ) :
    p12Fast k dt ma mb qa qb na nb L ga gb gaCm gbCm gcm (p ^ 2) pa =
      perezParameter k dt ma mb qa qb (na * nb / min na nb) L ga gb gaCm gbCm gcm p * (pa.length / p) := by
  unfold p12Fast perezParameter
  dsimp only
  have e1 : 4 * k.pi * (k.eps * (k.c * k.c)) ^ 2 * ma * ga * mb * gb = 4 * k.pi * k.eps ^ 2 * k.c ^ 4 * (ma * ga) * (mb * gb) := by ring
  have e2 : ma * gaCm * mb * gbCm * (k.c * k.c) / p ^ 2 = ma * gaCm * (mb * gbCm) * k.c ^ 2 / p ^ 2 := by ring
  rw [e1, e2]
  have e3 : gcm * p / (ma * ga + mb * gb) * (pa.length / p) = gcm * pa.length / (ma * ga + mb * gb) := by
    rw [div_mul_div_comm, mul_comm (ma * ga + mb * gb) p, mul_right_comm, mul_comm (gcm * pa.length) p, mul_div_mul_left _ _ hp]
  generalize (ma * gaCm * (mb * gbCm) * k.c ^ 2 / p ^ 2 + 1) ^ 2 = y
  generalize na * nb / min na nb * dt * L * (qa * qb) ^ 2 / (4 * k.pi * k.eps ^ 2 * k.c ^ 4 * (ma * ga) * (mb * gb)) = x
  rw [show x * (gcm * p / (ma * ga + mb * gb)) * y * (pa.length / p) = x * (gcm * p / (ma * ga + mb * gb) * (pa.length / p)) * y by ring, e3]
  ring

/-- C86 fails for P12 with fast particles: a particle at rest is not deflected by anything that hits it, as the momentum in
the laboratory is used instead of that in the centre of mass frame. -/
theorem C86_P12_rest_fails (k : Const) (dt ma mb qa qb na nb L ga gb gaCm gbCm gcm pcm2 v U : ℝ) (hU : 0 < U) (hdt : 0 ≤ dt)
    (hpi : 0 < k.pi) (hma : 0 < ma) (hmb : 0 < mb) (hna : 0 < na) (hnb : 0 < nb) (hv : 0 ≤ v) :
    cosXi (p12Limit k dt ma mb na nb v (p12Fast k dt ma mb qa qb na nb L ga gb gaCm gbCm gcm pcm2 ⟨0, 0, 0⟩)) U = .ok 1 := by
  have z : p12Fast k dt ma mb qa qb na nb L ga gb gaCm gbCm gcm pcm2 ⟨0, 0, 0⟩ = 0 := by
    unfold p12Fast Vec3.length Vec3.length2
    simp
  have l : p12Limit k dt ma mb na nb v 0 = 0 := by
    unfold p12Limit
    dsimp only
    split
    · apply min_eq_left
      have : 0 < min na nb := lt_min hna hnb
      have h1 : 0 < na ^ (2 / 3 : ℝ) := Real.rpow_pos_of_pos hna _
      have h2 : 0 < ma * na ^ (2 / 3 : ℝ) := by positivity
      have : 0 < max (ma * na ^ (2 / 3 : ℝ)) (mb * nb ^ (2 / 3 : ℝ)) := lt_max_of_lt_left h2
      positivity
    · rfl
  rw [z, l]
  unfold cosXi
  rw [if_pos (by norm_num), if_neg hU.ne']
  simp

/-! ### Concrete cases -/

noncomputable def exConst : Const := ⟨3, 1, 1, 1, 10, 4, 7433⟩
theorem exConst_good : exConst.Good := ⟨by norm_num [exConst], by norm_num [exConst], by norm_num [exConst], by norm_num [exConst],
  by norm_num [exConst], by norm_num [exConst]⟩
/-- Two macroparticles of different weights and velocities. -/
def scA : Part ℝ := ⟨0, 0, 0, 0, 0, 0, 1, 0, 0, 5, 0, 0, 0, 0, 0⟩
def scB : Part ℝ := ⟨0, 0, 0, 0, 0, 0, 0, 2, 0, 7, 0, 0, 0, 0, 0⟩
theorem exAB_w : ∀ p ∈ [scA, scB], 0 < p.weight := by
  intro p hp
  simp only [List.mem_cons, List.not_mem_nil, or_false] at hp
  rcases hp with rfl | rfl <;> norm_num [scA, scB]
theorem exA_moves : vel scA ≠ ⟨0, 0, 0⟩ := by unfold vel scA; simp
theorem exAB_speed : speedBetween (vel scA) (vel scB) ≠ 0 := by
  unfold speedBetween vel scA scB
  norm_num

example := C83_shift_fails exConst exConst_good 1 1 one_pos one_pos 4 2 (by norm_num) [scA, scB] exAB_w (by simp)
example := C84_temperature_partial exConst 1 [scA, scB] exAB_w (by simp)
example := C84_fails exConst exConst_good 1 one_pos [scA, scB] exAB_w scA (by simp) exA_moves
example := C84_drift_fails exConst exConst_good 1 one_pos [scA, scA]
  (by intro p hp; exact exAB_w p (by simp at hp; simp [hp])) (by simp) (vel scA) exA_moves (by intro p hp; simp at hp; rw [hp])
example := C85_debye exConst exConst_good 1 1 1 1836 one_pos one_pos one_pos (by norm_num) 4 2 [scA] [scB]
  (by intro p hp; exact exAB_w p (by simp at hp; simp [hp])) (by intro p hp; exact exAB_w p (by simp at hp; simp [hp]))
example (n phi dzeta : ℝ) := C86_TA77S_partial exConst exConst_good (dt := 1) (ma := 1) (mb := 1836) (qa := -1) (qb := 1) (na := 1) (nb := 2)
  (debye := 1) (n := n) (phi := phi) (dzeta := dzeta) (pa := scA) (pb := scB) one_pos one_pos (by norm_num) (by norm_num) one_ne_zero
  one_pos two_pos (exAB_w scA (by simp)) (exAB_w scB (by simp)) exAB_speed
example (n phi dzeta : ℝ) := C86_neutral_fails exConst (dt := 1) (ma := 1) (mb := 1836) (qa := -1) (qb := 0) (na := 1) (nb := 2)
  (debye := 1) (n := n) (phi := phi) (dzeta := dzeta) (pa := scA) (pb := scB) one_pos (by norm_num) (.inr rfl)
  (exAB_w scA (by simp)) (exAB_w scB (by simp)) exAB_speed
example : scA.weight ≠ scB.weight := by norm_num [scA, scB]
example := C86_P12_density_fails exConst exConst_good (dt := 1) (ma := 1) (mb := 1836) (qa := -1) (qb := 1) (na := 1) (nb := 2)
  (debye := 1) (v := 1) one_pos one_pos (by norm_num) (by norm_num) one_ne_zero one_pos two_pos (by norm_num) one_pos
example := C86_SK98_fails exConst exConst_good (dt := 1) (ma := 1) (mb := 1836) (qa := -1) (qb := 1) (na := 1) (nb := 2)
  (debye := 1) (v := 1) (gamma := 1) one_pos one_pos (by norm_num) (by norm_num) one_ne_zero one_pos two_pos one_pos le_rfl
example := C86_log_value exConst exConst_good (ma := 1) (mb := 1836) (debye := 1) (v := 1) one_pos (by norm_num) one_pos one_pos
example := C86_P12_fast_partial exConst (dt := 1) (ma := 1) (mb := 1836) (qa := -1) (qb := 1) (na := 1) (nb := 2) (L := 2) (ga := 2) (gb := 1)
  (gaCm := 2) (gbCm := 1) (gcm := 1) (p := 3) (by norm_num) ⟨5, 0, 0⟩
example := C86_P12_rest_fails exConst 1 1 1836 (-1) 1 1 2 2 1 1 1 1 1 1 1 (1/2) (by norm_num) zero_le_one (by norm_num [exConst]) one_pos
  (by norm_num) one_pos two_pos zero_le_one

end Coll
end Pico
