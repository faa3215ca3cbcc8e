import Verif.Lemmas.Collide
import Mathlib.Analysis.SpecialFunctions.Trigonometric.Arctan

/-! The centre of mass frame of the relativistic collision models. -/

set_option linter.unusedSectionVars false
set_option linter.unusedSimpArgs false
set_option linter.unusedVariables false

namespace Pico
namespace Coll

open Rel

/-! ### Velocities and momenta -/

theorem len2_eq (v : Vec3 ℝ) : v.length2 = v.x ^ 2 + v.y ^ 2 + v.z ^ 2 := by unfold Vec3.length2; ring

theorem vec_ext {a b : Vec3 ℝ} (x : a.x = b.x) (y : a.y = b.y) (z : a.z = b.z) : a = b := by
  obtain ⟨_, _, _⟩ := a; obtain ⟨_, _, _⟩ := b; simp only at x y z; subst x y z; rfl

theorem rGamma_spec {c : ℝ} {v : Vec3 ℝ} (hc : 0 < c) (hs : Slow c v) :
    0 < rGamma c v ∧ rGamma c v ^ 2 * (c ^ 2 - v.length2) = c ^ 2 ∧ lorenzFactor c v.length2 = .ok (rGamma c v) := by
  unfold Slow at hs
  rw [← len2_eq] at hs
  obtain ⟨γ, e, g0, h⟩ := lorenz_lt hc hs
  have h1 : v.length2 / c ^ 2 < 1 := by rw [div_lt_one (by positivity)]; exact hs
  have p : 0 < 1 - v.length2 / c ^ 2 := by linarith
  have sp : 0 < Real.sqrt (1 - v.length2 / c ^ 2) := Real.sqrt_pos.mpr p
  have r0 : 0 < rGamma c v := by unfold rGamma; rw [← len2_eq]; positivity
  have r2 : rGamma c v ^ 2 * (c ^ 2 - v.length2) = c ^ 2 := by
    unfold rGamma
    rw [← len2_eq, div_pow, Real.sq_sqrt p.le, one_pow]
    have hc' := hc.ne'
    have : c ^ 2 - v.length2 ≠ 0 := by linarith
    have e : 1 - v.length2 / c ^ 2 = (c ^ 2 - v.length2) / c ^ 2 := by field_simp
    rw [e]
    field_simp
  refine ⟨r0, r2, ?_⟩
  rw [e]
  congr 1
  apply sq_inj g0 r0
  have : c ^ 2 - v.length2 ≠ 0 := by linarith
  apply mul_right_cancel₀ this
  rw [h, r2]

theorem mom_of_slow {c m : ℝ} {v : Vec3 ℝ} (hc : 0 < c) (hm : 0 < m) (hs : Slow c v) : Mom c m (rEnergy c m v) (rMomentum c m v) := by
  obtain ⟨g0, g, _⟩ := rGamma_spec hc hs
  refine ⟨by unfold rEnergy; positivity, ?_⟩
  unfold rEnergy rMomentum
  rw [len2_eq] at *
  dsimp only
  linear_combination m ^ 2 * g

theorem momentum0_eq {c m : ℝ} {v : Vec3 ℝ} (hc : 0 < c) (hm : 0 < m) (hs : Slow c v) : momentum0 c m v = .ok (rEnergy c m v) := by
  unfold momentum0 rEnergy
  rw [if_neg hm.ne', (rGamma_spec hc hs).2.2, Res.ok_bind]
  congr 1; ring

theorem momentum_eq {c m : ℝ} {v : Vec3 ℝ} (hc : 0 < c) (hm : 0 < m) (hs : Slow c v) : momentum c m v = .ok (rMomentum c m v) := by
  unfold momentum rMomentum
  rw [if_neg hm.ne', (rGamma_spec hc hs).2.2, Res.ok_bind]
  congr 1
  unfold Vec3.smul
  simp only [Vec3.mk.injEq]
  refine ⟨by ring, by ring, by ring⟩

/-- From a momentum on the mass shell to the velocity, as `toLab` does it. -/
theorem vel_of_mom {c m p0 : ℝ} {p : Vec3 ℝ} (hc : 0 < c) (hm : 0 < m) (h : Mom c m p0 p) :
    Slow c ((p.sdiv m).smul (lorenzFactorInv c (p.sdiv m).length2)) ∧
    rMomentum c m ((p.sdiv m).smul (lorenzFactorInv c (p.sdiv m).length2)) = p ∧
    rEnergy c m ((p.sdiv m).smul (lorenzFactorInv c (p.sdiv m).length2)) = p0 := by
  set u := p.sdiv m with hu
  obtain ⟨g0, g⟩ := inv_spec (v2 := u.length2) hc (len2_nonneg u)
  set w := lorenzFactorInv c u.length2
  have hs : Slow c (u.smul w) := by
    unfold Slow
    rw [← len2_eq, len2_smul]
    exact inv_lt hc (len2_nonneg u)
  obtain ⟨r0, r, _⟩ := rGamma_spec hc hs
  rw [len2_smul] at r
  have one : rGamma c (u.smul w) * w = 1 := by
    apply sq_inj (by positivity) one_pos
    have hc2 : c ^ 2 ≠ 0 := by positivity
    apply mul_left_cancel₀ hc2
    linear_combination r + rGamma c (u.smul w) ^ 2 * g
  refine ⟨hs, ?_, ?_⟩
  · unfold rMomentum
    generalize rGamma c (u.smul w) = r at *
    have ux : m * u.x = p.x := by rw [hu]; unfold Vec3.sdiv; field_simp
    have uy : m * u.y = p.y := by rw [hu]; unfold Vec3.sdiv; field_simp
    have uz : m * u.z = p.z := by rw [hu]; unfold Vec3.sdiv; field_simp
    unfold Vec3.smul
    apply vec_ext <;> dsimp only
    · linear_combination m * u.x * one + ux
    · linear_combination m * u.y * one + uy
    · linear_combination m * u.z * one + uz
  · unfold rEnergy
    apply sq_inj (by positivity) h.pos
    have ul : m ^ 2 * u.length2 = p.length2 := by
      rw [hu]; unfold Vec3.sdiv Vec3.length2; field_simp
    generalize rGamma c (u.smul w) = G at *
    have k := h.shell
    have hc2 : c ^ 2 ≠ 0 := by positivity
    have e : G ^ 2 * c ^ 2 = c ^ 2 + u.length2 := by
      linear_combination -G ^ 2 * g + (G * w + 1) * (c ^ 2 + u.length2) * one
    linear_combination m ^ 2 * e - k + ul

/-! ### Boosts -/

theorem boost_add (beta : Vec3 ℝ) (gamma s : ℝ) (p q : Vec3 ℝ) (p0 q0 : ℝ) :
    (boost beta gamma s p p0).add (boost beta gamma s q q0) = boost beta gamma s (p.add q) (p0 + q0) := by
  unfold boost Vec3.add Vec3.zip Vec3.smul Vec3.sdiv Vec3.dot
  simp only [Vec3.mk.injEq]
  refine ⟨by ring, by ring, by ring⟩

theorem boost0_add (beta : Vec3 ℝ) (gamma s : ℝ) (p q : Vec3 ℝ) (p0 q0 : ℝ) :
    boost0 beta gamma s p p0 + boost0 beta gamma s q q0 = boost0 beta gamma s (p.add q) (p0 + q0) := by
  unfold boost0 Vec3.add Vec3.zip Vec3.dot
  ring

theorem boost_form {beta : Vec3 ℝ} {gamma s : ℝ} (p : Vec3 ℝ) (p0 : ℝ) :
    boost beta gamma s p p0 = ⟨p.x + beta.x * beta.dot p * ((gamma - 1) / beta.length2) + beta.x * gamma * (s * p0),
      p.y + beta.y * beta.dot p * ((gamma - 1) / beta.length2) + beta.y * gamma * (s * p0),
      p.z + beta.z * beta.dot p * ((gamma - 1) / beta.length2) + beta.z * gamma * (s * p0)⟩ := by
  unfold boost Vec3.add Vec3.zip Vec3.smul Vec3.sdiv
  simp only [Vec3.mk.injEq]
  refine ⟨by ring, by ring, by ring⟩

/-- Boosting there and back. -/
theorem boost_back {beta : Vec3 ℝ} {gamma : ℝ} (hb : beta.length2 ≠ 0) (hg : gamma ^ 2 * (1 - beta.length2) = 1) (p : Vec3 ℝ) (p0 : ℝ) :
    boost beta gamma (-1) (boost beta gamma 1 p p0) (boost0 beta gamma 1 p p0) = p := by
  rw [boost_form, boost_form]
  unfold boost0
  obtain ⟨k, hk⟩ : ∃ k, k = (gamma - 1) / beta.length2 := ⟨_, rfl⟩
  rw [← hk]
  have R1 : k * beta.length2 = gamma - 1 := by rw [hk]; field_simp
  obtain ⟨d, hd⟩ : ∃ d, d = beta.dot p := ⟨_, rfl⟩
  rw [← hd]
  have dd : beta.dot ⟨p.x + beta.x * d * k + beta.x * gamma * (1 * p0), p.y + beta.y * d * k + beta.y * gamma * (1 * p0),
      p.z + beta.z * d * k + beta.z * gamma * (1 * p0)⟩ = d * gamma + beta.length2 * gamma * p0 := by
    have hd' : d = beta.x * p.x + beta.y * p.y + beta.z * p.z := by rw [hd]; unfold Vec3.dot; ring
    have hb2 : beta.length2 = beta.x * beta.x + beta.y * beta.y + beta.z * beta.z := rfl
    have R1' : k * (beta.x * beta.x + beta.y * beta.y + beta.z * beta.z) = gamma - 1 := R1
    rw [hb2]
    unfold Vec3.dot
    dsimp only
    linear_combination -hd' + d * R1'
  rw [dd]
  have z1 : d * k + k * (d * gamma) - gamma ^ 2 * d = 0 := by
    have R3 : k * (gamma + 1) = gamma ^ 2 := by
      apply mul_left_cancel₀ hb
      linear_combination (gamma + 1) * R1 + hg
    linear_combination d * R3
  apply vec_ext <;> dsimp only
  · linear_combination beta.x * z1 + beta.x * gamma * p0 * R1
  · linear_combination beta.y * z1 + beta.y * gamma * p0 * R1
  · linear_combination beta.z * z1 + beta.z * gamma * p0 * R1

/-! ### The frame -/

/-- What the code computes about the centre of mass frame. -/
structure Good (c ma mb : ℝ) (va vb : Vec3 ℝ) (f : Frame) : Prop where
  hb : f.beta.length2 ≠ 0
  g0 : 0 < f.gamma
  hg : f.gamma ^ 2 * (1 - f.beta.length2) = 1
  tot : (rMomentum c ma va).add (rMomentum c mb vb) = f.beta.smul (rEnergy c ma va + rEnergy c mb vb)
  pa : f.paCm = boost f.beta f.gamma (-1) (rMomentum c ma va) (rEnergy c ma va)
  p0a : f.p0aCm = boost0 f.beta f.gamma (-1) (rMomentum c ma va) (rEnergy c ma va)
  p0b : f.p0bCm = boost0 f.beta f.gamma (-1) (rMomentum c mb vb) (rEnergy c mb vb)

theorem beta_lt {c ma mb : ℝ} {p q : Vec3 ℝ} {p0 q0 : ℝ} (hc : 0 < c) (hma : 0 < ma) (hmb : 0 < mb) (h1 : Mom c ma p0 p) (h2 : Mom c mb q0 q) :
    ((p.add q).sdiv (p0 + q0)).length2 < 1 := by
  have k := abs_dot_lt h1.pos h2.pos (h1.lt hc hma).le (h2.lt hc hmb)
  have a := h1.lt hc hma
  have b := h2.lt hc hmb
  have s0 : 0 < p0 + q0 := add_pos h1.pos h2.pos
  have e : ((p.add q).sdiv (p0 + q0)).length2 = (p.length2 + 2 * p.dot q + q.length2) / (p0 + q0) ^ 2 := by
    unfold Vec3.length2 Vec3.sdiv Vec3.add Vec3.zip Vec3.dot
    dsimp only
    field_simp
    ring
  rw [e, div_lt_one (by positivity)]
  have := (abs_lt.mp k).2
  nlinarith

theorem comFrame_good {c ma mb : ℝ} {va vb : Vec3 ℝ} (hc : 0 < c) (hma : 0 < ma) (hmb : 0 < mb) (ha : Slow c va) (hb : Slow c vb)
    (hP : (rMomentum c ma va).add (rMomentum c mb vb) ≠ ⟨0, 0, 0⟩) : ∃ f, comFrame c ma mb va vb = .ok f ∧ Good c ma mb va vb f := by
  have h1 := mom_of_slow hc hma ha
  have h2 := mom_of_slow hc hmb hb
  have s0 := add_pos h1.pos h2.pos
  unfold comFrame
  rw [momentum0_eq hc hma ha, Res.ok_bind, momentum0_eq hc hmb hb, Res.ok_bind, momentum_eq hc hma ha, Res.ok_bind, momentum_eq hc hmb hb, Res.ok_bind,
    if_neg s0.ne']
  have bl := beta_lt hc hma hmb h1 h2
  have tot : (rMomentum c ma va).add (rMomentum c mb vb) =
      (((rMomentum c ma va).add (rMomentum c mb vb)).sdiv (rEnergy c ma va + rEnergy c mb vb)).smul (rEnergy c ma va + rEnergy c mb vb) := by
    generalize (rMomentum c ma va).add (rMomentum c mb vb) = P at *
    unfold Vec3.smul Vec3.sdiv
    apply vec_ext <;> dsimp only <;> rw [div_mul_cancel₀ _ s0.ne']
  obtain ⟨B, hB⟩ : ∃ B, B = ((rMomentum c ma va).add (rMomentum c mb vb)).sdiv (rEnergy c ma va + rEnergy c mb vb) := ⟨_, rfl⟩
  rw [← hB] at tot bl
  simp only [← hB]
  obtain ⟨γ, e, g0, hg⟩ := lorenz_lt (v2 := B.length2 * (c * c)) hc (by nlinarith [mul_pos hc hc])
  have b0 : B.length2 ≠ 0 := by
    intro h0
    apply hP
    rw [tot]
    rw [len2_eq] at h0
    have x := sq_nonneg B.x
    have y := sq_nonneg B.y
    have z := sq_nonneg B.z
    have ex := pow_eq_zero_iff (two_ne_zero) |>.mp (by linarith : B.x ^ 2 = 0)
    have ey := pow_eq_zero_iff (two_ne_zero) |>.mp (by linarith : B.y ^ 2 = 0)
    have ez := pow_eq_zero_iff (two_ne_zero) |>.mp (by linarith : B.z ^ 2 = 0)
    unfold Vec3.smul
    rw [ex, ey, ez]
    simp
  rw [e, Res.ok_bind, if_neg b0]
  refine ⟨_, rfl, b0, g0, ?_, tot, ?_, ?_, ?_⟩
  · dsimp only
    have hc2 : c ^ 2 ≠ 0 := by positivity
    apply mul_left_cancel₀ hc2
    linear_combination hg
  · dsimp only
    rw [boost_form]
    unfold Vec3.sub Vec3.add Vec3.zip Vec3.smul Vec3.sdiv
    apply vec_ext <;> dsimp only <;> ring
  · dsimp only
    unfold boost0
    ring
  · dsimp only
    unfold boost0
    ring

/-- Opposite momenta: division by zero. -/
theorem comFrame_head_on {c ma mb : ℝ} {va vb : Vec3 ℝ} (hc : 0 < c) (hma : 0 < ma) (hmb : 0 < mb) (ha : Slow c va) (hb : Slow c vb)
    (hP : (rMomentum c ma va).add (rMomentum c mb vb) = ⟨0, 0, 0⟩) : comFrame c ma mb va vb = .ub := by
  have h1 := mom_of_slow hc hma ha
  have h2 := mom_of_slow hc hmb hb
  have s0 := add_pos h1.pos h2.pos
  unfold comFrame
  rw [momentum0_eq hc hma ha, Res.ok_bind, momentum0_eq hc hmb hb, Res.ok_bind, momentum_eq hc hma ha, Res.ok_bind, momentum_eq hc hmb hb, Res.ok_bind,
    if_neg s0.ne', hP]
  have z : ((⟨0, 0, 0⟩ : Vec3 ℝ).sdiv (rEnergy c ma va + rEnergy c mb vb)).length2 = 0 := by
    unfold Vec3.sdiv Vec3.length2; simp
  simp only [z, zero_mul]
  obtain ⟨γ, e, _, _⟩ := lorenz_lt (v2 := 0) hc (by positivity)
  rw [e, Res.ok_bind]
  simp only [if_true]

theorem comFrame_inv {c ma mb : ℝ} {va vb : Vec3 ℝ} {f : Frame} (hc : 0 < c) (hma : 0 < ma) (hmb : 0 < mb) (ha : Slow c va) (hb : Slow c vb)
    (h : comFrame c ma mb va vb = .ok f) : Good c ma mb va vb f := by
  by_cases hP : (rMomentum c ma va).add (rMomentum c mb vb) = ⟨0, 0, 0⟩
  · rw [comFrame_head_on hc hma hmb ha hb hP] at h
    exact absurd h (by simp)
  · obtain ⟨f', e, g⟩ := comFrame_good hc hma hmb ha hb hP
    rw [e] at h
    injection h with h
    exact h ▸ g

theorem Good.momA {c ma mb : ℝ} {va vb : Vec3 ℝ} {f : Frame} (h : Good c ma mb va vb f) (hc : 0 < c) (hma : 0 < ma) (ha : Slow c va) :
    Mom c ma f.p0aCm f.paCm := by
  rw [h.pa, h.p0a]
  exact boost_mom hc hma (by norm_num) h.g0 h.hb h.hg (mom_of_slow hc hma ha)

/-- The total momentum in the frame is zero. -/
theorem Good.pb {c ma mb : ℝ} {va vb : Vec3 ℝ} {f : Frame} (h : Good c ma mb va vb f) :
    boost f.beta f.gamma (-1) (rMomentum c mb vb) (rEnergy c mb vb) = neg3 f.paCm := by
  have s := boost_add f.beta f.gamma (-1) (rMomentum c ma va) (rMomentum c mb vb) (rEnergy c ma va) (rEnergy c mb vb)
  rw [h.tot, ← h.pa] at s
  have z : boost f.beta f.gamma (-1) (f.beta.smul (rEnergy c ma va + rEnergy c mb vb)) (rEnergy c ma va + rEnergy c mb vb) = ⟨0, 0, 0⟩ := by
    rw [boost_form]
    have d : f.beta.dot (f.beta.smul (rEnergy c ma va + rEnergy c mb vb)) = f.beta.length2 * (rEnergy c ma va + rEnergy c mb vb) := by
      unfold Vec3.dot Vec3.smul Vec3.length2; ring
    have hb := h.hb
    rw [d]
    generalize f.beta.length2 = b2 at *
    have q : b2 * (rEnergy c ma va + rEnergy c mb vb) * ((f.gamma - 1) / b2) = (f.gamma - 1) * (rEnergy c ma va + rEnergy c mb vb) := by field_simp
    unfold Vec3.smul
    apply vec_ext <;> dsimp only
    · linear_combination f.beta.x * q
    · linear_combination f.beta.y * q
    · linear_combination f.beta.z * q
  rw [z] at s
  generalize boost f.beta f.gamma (-1) (rMomentum c mb vb) (rEnergy c mb vb) = Q at *
  generalize f.paCm = p at *
  unfold Vec3.add Vec3.zip at s
  simp only [Vec3.mk.injEq] at s
  unfold neg3
  apply vec_ext <;> dsimp only
  · linarith [s.1]
  · linarith [s.2.1]
  · linarith [s.2.2]

theorem neg3_len (p : Vec3 ℝ) : (neg3 p).length2 = p.length2 := by unfold neg3 Vec3.length2; ring

theorem Good.momB {c ma mb : ℝ} {va vb : Vec3 ℝ} {f : Frame} (h : Good c ma mb va vb f) (hc : 0 < c) (hmb : 0 < mb) (hb : Slow c vb) :
    Mom c mb f.p0bCm (neg3 f.paCm) := by
  rw [h.p0b, ← h.pb]
  exact boost_mom hc hmb (by norm_num) h.g0 h.hb h.hg (mom_of_slow hc hmb hb)

theorem toLab_eq (c m : ℝ) (f : Frame) (p : Vec3 ℝ) (p0 : ℝ) :
    toLab c m f p p0 = ((boost f.beta f.gamma 1 p p0).sdiv m).smul (lorenzFactorInv c ((boost f.beta f.gamma 1 p p0).sdiv m).length2) := by
  unfold toLab boost
  simp only [one_mul]

theorem toLab_spec {c m p0 : ℝ} {f : Frame} {p : Vec3 ℝ} (hc : 0 < c) (hm : 0 < m) (hb : f.beta.length2 ≠ 0) (g0 : 0 < f.gamma)
    (hg : f.gamma ^ 2 * (1 - f.beta.length2) = 1) (h : Mom c m p0 p) :
    Slow c (toLab c m f p p0) ∧ rMomentum c m (toLab c m f p p0) = boost f.beta f.gamma 1 p p0 ∧
      rEnergy c m (toLab c m f p p0) = boost0 f.beta f.gamma 1 p p0 := by
  rw [toLab_eq]
  exact vel_of_mom hc hm (boost_mom hc hm (by norm_num) g0 hb hg h)

/-- Any turn of the momentum in the centre of mass frame keeps total momentum and energy. -/
theorem scatter {c ma mb : ℝ} {va vb q : Vec3 ℝ} {f : Frame} (hc : 0 < c) (hma : 0 < ma) (hmb : 0 < mb) (ha : Slow c va) (hb : Slow c vb)
    (h : Good c ma mb va vb f) (hq : q.length2 = f.paCm.length2) :
    Slow c (toLab c ma f q f.p0aCm) ∧ Slow c (toLab c mb f (neg3 q) f.p0bCm) ∧
      SameTotals c ma mb va vb (toLab c ma f q f.p0aCm) (toLab c mb f (neg3 q) f.p0bCm) := by
  have mA : Mom c ma f.p0aCm q := ⟨(h.momA hc hma ha).pos, by rw [hq]; exact (h.momA hc hma ha).shell⟩
  have mB : Mom c mb f.p0bCm (neg3 q) := ⟨(h.momB hc hmb hb).pos, by rw [neg3_len, hq, ← neg3_len f.paCm]; exact (h.momB hc hmb hb).shell⟩
  obtain ⟨a1, a2, a3⟩ := toLab_spec hc hma h.hb h.g0 h.hg mA
  obtain ⟨b1, b2, b3⟩ := toLab_spec hc hmb h.hb h.g0 h.hg mB
  refine ⟨a1, b1, ?_⟩
  unfold SameTotals
  rw [a2, b2, a3, b3, boost_add, boost0_add]
  have z : q.add (neg3 q) = ⟨0, 0, 0⟩ := by
    unfold Vec3.add Vec3.zip neg3; apply vec_ext <;> dsimp only <;> ring
  have E : f.p0aCm + f.p0bCm = f.gamma * ((rEnergy c ma va + rEnergy c mb vb) * (1 - f.beta.length2)) := by
    rw [h.p0a, h.p0b, boost0_add, h.tot]
    unfold boost0 Vec3.dot Vec3.smul Vec3.length2
    ring
  rw [z, E, h.tot]
  have hg := h.hg
  constructor
  · rw [boost_form]
    unfold Vec3.dot Vec3.smul
    generalize f.beta.length2 = b2 at *
    apply vec_ext <;> dsimp only
    · linear_combination f.beta.x * (rEnergy c ma va + rEnergy c mb vb) * hg
    · linear_combination f.beta.y * (rEnergy c ma va + rEnergy c mb vb) * hg
    · linear_combination f.beta.z * (rEnergy c ma va + rEnergy c mb vb) * hg
  · unfold boost0 Vec3.dot
    generalize f.beta.length2 = b2 at *
    linear_combination (rEnergy c ma va + rEnergy c mb vb) * hg

/-! ### Relative speed -/

theorem length_sdiv {v : Vec3 ℝ} {s : ℝ} (hs : 0 < s) : (v.sdiv s).length = v.length / s := by
  unfold Vec3.length
  have : (v.sdiv s).length2 = v.length2 / s ^ 2 := by unfold Vec3.sdiv Vec3.length2; field_simp
  rw [this, Real.sqrt_div (len2_nonneg v), Real.sqrt_sq hs.le]

/-- The relative speed in terms of the length `L` of the momentum and the energies `E`, `F`. -/
theorem relSpeed_eq {c ma mb E F : ℝ} {p : Vec3 ℝ} (hc : 0 < c) (hma : 0 < ma) (hmb : 0 < mb) (hE : 0 < E) (hF : 0 < F) :
    relSpeed c ma mb p (E / ma / c) (F / mb / c) = c * p.length * (F - E) / (E * F + p.length2) := by
  unfold relSpeed
  have e1 : ma * (E / ma / c) = E / c := by field_simp
  have e2 : mb * (F / mb / c) = F / c := by field_simp
  rw [e1, e2]
  simp only
  rw [length_sdiv (by positivity), length_sdiv (by positivity)]
  have l : (neg3 p).length = p.length := by unfold Vec3.length; rw [neg3_len]
  have d : (p.sdiv (E / c)).dot ((neg3 p).sdiv (F / c)) = - p.length2 * c * c / (E * F) := by
    unfold Vec3.sdiv Vec3.dot neg3 Vec3.length2
    dsimp only
    field_simp
    ring
  rw [l, d]
  have n := len2_nonneg p
  have : E * F + p.length2 ≠ 0 := by positivity
  have t : 1 - -p.length2 * c * c / (E * F) / (c * c) = (E * F + p.length2) / (E * F) := by field_simp; ring
  rw [t]
  field_simp

theorem relSpeed_abs {c E F ma mb : ℝ} {p : Vec3 ℝ} (hc : 0 < c) (hma : 0 < ma) (hmb : 0 < mb) (h1 : Mom c ma E p) (h2 : Mom c mb F p) :
    |c * p.length * (F - E) / (E * F + p.length2)| < c := by
  have hE := h1.pos
  have hF := h2.pos
  have n := len2_nonneg p
  have l0 : 0 ≤ p.length := Real.sqrt_nonneg _
  have lsq : p.length ^ 2 = p.length2 := Real.sq_sqrt n
  have lE : p.length < E := lt_of_pow_lt_pow_left₀ 2 hE.le (by rw [lsq]; exact h1.lt hc hma)
  have lF : p.length < F := lt_of_pow_lt_pow_left₀ 2 hF.le (by rw [lsq]; exact h2.lt hc hmb)
  have d0 : 0 < E * F + p.length2 := by positivity
  rw [abs_div, abs_of_pos d0, div_lt_iff₀ d0, mul_assoc, abs_mul, abs_of_pos hc]
  apply mul_lt_mul_of_pos_left _ hc
  rw [abs_lt]
  constructor <;> nlinarith

theorem energy_le {c ma mb E F : ℝ} {p : Vec3 ℝ} (hc : 0 < c) (hmb : 0 < mb) (hm : mb ≤ ma) (h1 : Mom c ma E p) (h2 : Mom c mb F p) : F ≤ E := by
  have a := h1.shell
  have b := h2.shell
  refine le_of_not_gt fun hlt => ?_
  have := pow_lt_pow_left₀ hlt h1.pos.le two_ne_zero
  have : (mb * c) ^ 2 ≤ (ma * c) ^ 2 := pow_le_pow_left₀ (by positivity) (mul_le_mul_of_nonneg_right hm hc.le) 2
  linarith

theorem energy_lt {c ma mb E F : ℝ} {p : Vec3 ℝ} (hc : 0 < c) (hma : 0 < ma) (hm : ma < mb) (h1 : Mom c ma E p) (h2 : Mom c mb F p) : E < F := by
  have a := h1.shell
  have b := h2.shell
  apply lt_of_pow_lt_pow_left₀ 2 h2.pos.le
  have : (ma * c) ^ 2 < (mb * c) ^ 2 := pow_lt_pow_left₀ (mul_lt_mul_of_pos_right hm hc) (by positivity) two_ne_zero
  linarith

theorem Mom.neg {c m E : ℝ} {p : Vec3 ℝ} (h : Mom c m E (neg3 p)) : Mom c m E p := ⟨h.pos, by rw [← neg3_len p]; exact h.shell⟩

end Coll
end Pico
