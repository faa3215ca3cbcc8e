import Verif.Model.Pusher
import Verif.Lemmas.Rel

set_option linter.unusedSectionVars false
set_option linter.unusedSimpArgs false
set_option linter.unusedVariables false

namespace Pico
namespace Pusher

open Rel

theorem smul_zero' (s : ℝ) : (Vec3.zero : Vec3 ℝ).smul s = Vec3.zero := by
  simp [Vec3.smul, Vec3.zero]
theorem add_zero' (v : Vec3 ℝ) : v.add Vec3.zero = v := by
  simp [Vec3.add, Vec3.zip, Vec3.zero]
theorem zero_add' (v : Vec3 ℝ) : (Vec3.zero : Vec3 ℝ).add v = v := by
  simp [Vec3.add, Vec3.zip, Vec3.zero]

theorem len2_zero {v : Vec3 ℝ} (h : v.length2 = 0) : v = Vec3.zero := by
  by_contra hn
  exact (Vec3.length2_pos hn).ne' h

theorem rot_den (b : Vec3 ℝ) : 2 / (1 + b.length2) * (1 + b.length2) = 2 :=
  div_mul_cancel₀ _ (by have := len2_nonneg b; linarith)

theorem rotate_norm (b v : Vec3 ℝ) : (rotate b v).length2 = v.length2 := by
  have hk := rot_den b
  unfold rotate
  dsimp only
  generalize 2 / (1 + b.length2) = k at hk
  unfold Vec3.length2 at *
  dsimp only
  linear_combination (k * ((v.y * b.z - v.z * b.y) ^ 2 + (v.z * b.x - v.x * b.z) ^ 2 + (v.x * b.y - v.y * b.x) ^ 2)) * hk

/-- The rotation solves `v' - v = (v' + v) x b`. -/
theorem rotate_eq (b v : Vec3 ℝ) : (rotate b v).sub v = (((rotate b v).add v).cross b).1 := by
  have hk := rot_den b
  unfold rotate
  dsimp only
  generalize 2 / (1 + b.length2) = k at hk
  unfold Vec3.length2 at hk
  unfold Vec3.sub Vec3.add Vec3.cross Vec3.zip
  dsimp only
  congr 1
  · linear_combination (v.y * b.z - v.z * b.y) * hk
  · linear_combination (v.z * b.x - v.x * b.z) * hk
  · linear_combination (v.x * b.y - v.y * b.x) * hk

theorem rotate_zero (v : Vec3 ℝ) : rotate Vec3.zero v = v := by
  unfold rotate Vec3.zero
  simp

/-- Square of the velocity for a given square of the momentum per mass. -/
theorem speed2 {c x : ℝ} (hc : 0 < c) (hx : 0 ≤ x) : lorenzFactorInv c x ^ 2 * x = c ^ 2 * x / (c ^ 2 + x) := by
  have := inv_spec hc hx
  rw [eq_div_iff (by positivity)]
  linear_combination x * this.2

theorem speed2_mono {c x y : ℝ} (hc : 0 < c) (hx : 0 ≤ x) (hxy : x < y) :
    lorenzFactorInv c x ^ 2 * x < lorenzFactorInv c y ^ 2 * y := by
  have hy : 0 < y := by linarith
  rw [speed2 hc hx, speed2 hc hy.le, div_lt_div_iff₀ (by positivity) (by positivity)]
  have : 0 < c ^ 2 * c ^ 2 * (y - x) := mul_pos (by positivity) (by linarith)
  linarith

/-- The square of the speed comes back from the momentum. -/
theorem speed2_back {c v2 γ : ℝ} (hc : 0 < c) (h0 : 0 ≤ v2) (hg : 0 < γ) (h : γ ^ 2 * (c ^ 2 - v2) = c ^ 2) :
    lorenzFactorInv c (γ ^ 2 * v2) ^ 2 * (γ ^ 2 * v2) = v2 := by
  have := inv_of_lorenz hc h0 hg h
  have e : lorenzFactorInv c (γ ^ 2 * v2) ^ 2 * (γ ^ 2 * v2) = (lorenzFactorInv c (γ ^ 2 * v2) * γ) ^ 2 * v2 := by ring
  rw [e, this]; ring

theorem invGamma_spec {s w : ℝ} (hw : 0 ≤ w) (hs : 0 < w ∨ 0 < s) :
    ∃ a, invGammaNew s w = .ok a ∧ 0 < a ∧ 1 - s * a ^ 2 - w * (a ^ 2) ^ 2 = 0 := by
  have h0 : 0 ≤ s * s + 4 * w := by nlinarith [mul_self_nonneg s]
  set R := Real.sqrt (s * s + 4 * w) with hR
  have hR2 : R ^ 2 = s * s + 4 * w := Real.sq_sqrt h0
  have hR0 : 0 ≤ R := Real.sqrt_nonneg _
  have hq : 0 < 1/2 * (s + R) := by
    rcases hs with hs | hs
    · have : s ^ 2 < R ^ 2 := by rw [hR2]; linarith [pow_two s]
      have := abs_lt_of_sq_lt_sq this hR0
      linarith [(abs_lt.mp (by simpa using this : |s| < R)).1]
    · linarith
  refine ⟨1 / Real.sqrt (1/2 * (s + R)), ?_, ?_, ?_⟩
  · unfold invGammaNew
    dsimp only
    rw [if_neg]
    rintro (h | h)
    · linarith
    · linarith
  · have := Real.sqrt_pos.mpr hq; positivity
  · rw [div_pow, Real.sq_sqrt hq.le, one_pow]
    have : s + R ≠ 0 := by linarith
    field_simp
    linear_combination hR2

theorem cmp_id (s w a x : ℝ) (h : 1 - s * a ^ 2 - w * (a ^ 2) ^ 2 = 0) :
    a ^ 2 * (1 - s * x - w * x ^ 2) = (a ^ 2 - x) * (1 + w * x * a ^ 2) := by
  linear_combination x * h

/-- The second half of the Vay push: the vector `p` with `p - p x t = up`. -/
noncomputable def vayHalf (t up : Vec3 ℝ) : Vec3 ℝ :=
  let s := 1 / (1 + t.length2)
  let a := up.dot t
  ⟨s * (up.x + a * t.x + t.z * up.y - t.y * up.z),
   s * (up.y + a * t.y + t.x * up.z - t.z * up.x),
   s * (up.z + a * t.z + t.y * up.x - t.x * up.y)⟩

theorem half_den (t : Vec3 ℝ) : 1 / (1 + t.length2) * (1 + t.length2) = 1 :=
  div_mul_cancel₀ _ (by have := len2_nonneg t; linarith)

theorem vayHalf_norm (t up : Vec3 ℝ) :
    (vayHalf t up).length2 * (1 + t.length2) = up.length2 + up.dot t ^ 2 := by
  have hk := half_den t
  unfold vayHalf
  dsimp only
  generalize 1 / (1 + t.length2) = k at hk
  unfold Vec3.length2 Vec3.dot at *
  dsimp only
  have e : ∀ D : ℝ, k * D = 1 → D = 1 + (t.x * t.x + t.y * t.y + t.z * t.z) →
      ((k * (up.x + (0 + up.x * t.x + up.y * t.y + up.z * t.z) * t.x + t.z * up.y - t.y * up.z)) * (k * (up.x + (0 + up.x * t.x + up.y * t.y + up.z * t.z) * t.x + t.z * up.y - t.y * up.z)) +
       (k * (up.y + (0 + up.x * t.x + up.y * t.y + up.z * t.z) * t.y + t.x * up.z - t.z * up.x)) * (k * (up.y + (0 + up.x * t.x + up.y * t.y + up.z * t.z) * t.y + t.x * up.z - t.z * up.x)) +
       (k * (up.z + (0 + up.x * t.x + up.y * t.y + up.z * t.z) * t.z + t.y * up.x - t.x * up.y)) * (k * (up.z + (0 + up.x * t.x + up.y * t.y + up.z * t.z) * t.z + t.y * up.x - t.x * up.y))) * D
      = up.x * up.x + up.y * up.y + up.z * up.z + (0 + up.x * t.x + up.y * t.y + up.z * t.z) ^ 2 := by
    intro D h1 h2
    have e2 : ((k * (up.x + (0 + up.x * t.x + up.y * t.y + up.z * t.z) * t.x + t.z * up.y - t.y * up.z)) * (k * (up.x + (0 + up.x * t.x + up.y * t.y + up.z * t.z) * t.x + t.z * up.y - t.y * up.z)) +
       (k * (up.y + (0 + up.x * t.x + up.y * t.y + up.z * t.z) * t.y + t.x * up.z - t.z * up.x)) * (k * (up.y + (0 + up.x * t.x + up.y * t.y + up.z * t.z) * t.y + t.x * up.z - t.z * up.x)) +
       (k * (up.z + (0 + up.x * t.x + up.y * t.y + up.z * t.z) * t.z + t.y * up.x - t.x * up.y)) * (k * (up.z + (0 + up.x * t.x + up.y * t.y + up.z * t.z) * t.z + t.y * up.x - t.x * up.y)))
       = k ^ 2 * D * (up.x * up.x + up.y * up.y + up.z * up.z + (0 + up.x * t.x + up.y * t.y + up.z * t.z) ^ 2) := by
      rw [h2]; ring
    rw [e2]
    have : k ^ 2 * D * (up.x * up.x + up.y * up.y + up.z * up.z + (0 + up.x * t.x + up.y * t.y + up.z * t.z) ^ 2) * D =
      (k * D) ^ 2 * (up.x * up.x + up.y * up.y + up.z * up.z + (0 + up.x * t.x + up.y * t.y + up.z * t.z) ^ 2) := by ring
    rw [this, h1]; ring
  exact e _ hk rfl

theorem vayHalf_eq (t up : Vec3 ℝ) : (vayHalf t up).sub ((vayHalf t up).cross t).1 = up := by
  have hk := half_den t
  unfold vayHalf
  dsimp only
  generalize 1 / (1 + t.length2) = k at hk
  unfold Vec3.length2 at hk
  cases up with | mk a b c =>
  unfold Vec3.sub Vec3.cross Vec3.zip Vec3.dot
  dsimp only
  congr 1
  · linear_combination a * hk
  · linear_combination b * hk
  · linear_combination c * hk

/-- First half of the Vay push. -/
noncomputable def vayFirst (g : ℝ) (e b u : Vec3 ℝ) : Vec3 ℝ :=
  ⟨(u.add e).x + g * (u.y * b.z - u.z * b.y), (u.add e).y + g * (u.z * b.x - u.x * b.z),
    (u.add e).z + g * (u.x * b.y - u.y * b.x)⟩

theorem vayFirst_eq (g : ℝ) (e b u : Vec3 ℝ) : vayFirst g e b u = (u.add e).add ((u.smul g).cross b).1 := by
  unfold vayFirst Vec3.add Vec3.cross Vec3.smul Vec3.zip
  dsimp only
  congr 1 <;> ring

/-- Vay push below `c`: it is defined; the quantities that matter. -/
theorem vay_eq (P : Par) (hc : 0 < P.c) (e b v : Vec3 ℝ) (hv : v.length2 < P.c ^ 2) :
    ∃ γ a, lorenzFactor P.c v.length2 = .ok γ ∧ 0 < γ ∧ γ ^ 2 * (P.c ^ 2 - v.length2) = P.c ^ 2 ∧ 0 < a ∧
      let up := vayFirst (lorenzFactorInv P.c (v.smul γ).length2) (e.smul (2 * P.k)) (b.smul (P.k * P.mu)) (v.smul γ)
      let B := b.smul (P.k * P.mu)
      1 - (1 + up.length2 - B.length2) * a ^ 2 - (B.length2 + up.dot B ^ 2) * (a ^ 2) ^ 2 = 0 ∧
      vay P e b v = .ok ((vayHalf (B.smul a) up).smul (lorenzFactorInv P.c (vayHalf (B.smul a) up).length2)) := by
  obtain ⟨γ, eg, hg, h⟩ := lorenz_lt hc hv
  set up := vayFirst (lorenzFactorInv P.c (v.smul γ).length2) (e.smul (2 * P.k)) (b.smul (P.k * P.mu)) (v.smul γ) with hup
  set B := b.smul (P.k * P.mu) with hB
  obtain ⟨a, ea, ha, h1⟩ := invGamma_spec (s := 1 + up.length2 - B.length2) (w := B.length2 + up.dot B ^ 2)
    (by have := len2_nonneg B; positivity)
    (by
      have := len2_nonneg up
      rcases (len2_nonneg B).lt_or_eq with k | k
      · left; positivity
      · right; rw [← k]; linarith)
  refine ⟨γ, a, eg, hg, h, ha, h1, ?_⟩
  unfold vay
  rw [eg, Res.ok_bind]
  show (invGammaNew (1 + up.length2 - B.length2) (B.length2 + up.dot B ^ 2) >>= fun alpha => _) = _
  rw [ea, Res.ok_bind]
  rfl

/-- The matrix of the Higuera-Cary rotation times the determinant. -/
theorem hc_den (b : Vec3 ℝ) : 0 < 1 + b.x * b.x + b.y * b.y + b.x * b.x := by
  have := mul_self_nonneg b.x; have := mul_self_nonneg b.y; linarith

theorem hc_eq (P : Par) (hc0 : 0 < P.c) (e b v : Vec3 ℝ) (hv : v.length2 < P.c ^ 2) :
    ∃ γ a, lorenzFactor P.c v.length2 = .ok γ ∧ 0 < γ ∧ γ ^ 2 * (P.c ^ 2 - v.length2) = P.c ^ 2 ∧ 0 < a ∧
      let um := (v.smul γ).add (e.smul P.k)
      let p := (e.smul P.k).add (hcRotate ((b.smul (P.k * P.mu)).smul a) um)
      hc P e b v = .ok (p.smul (lorenzFactorInv P.c p.length2)) := by
  obtain ⟨γ, eg, hg, h⟩ := lorenz_lt hc0 hv
  set um := (v.smul γ).add (e.smul P.k) with hum
  set B := b.smul (P.k * P.mu) with hB
  obtain ⟨a, ea, ha, h1⟩ := invGamma_spec (s := 1 + um.length2 - B.length2) (w := B.length2 + (B.x * um.x + B.y * um.y + B.z * um.z) ^ 2)
    (by have := len2_nonneg B; positivity)
    (by
      have := len2_nonneg um
      rcases (len2_nonneg B).lt_or_eq with k | k
      · left; positivity
      · right; rw [← k]; linarith)
  refine ⟨γ, a, eg, hg, h, ha, ?_⟩
  unfold hc
  rw [eg, Res.ok_bind]
  show (invGammaNew (1 + um.length2 - B.length2) (B.length2 + (B.x * um.x + B.y * um.y + B.z * um.z) ^ 2) >>= fun alpha => _) = _
  rw [ea, Res.ok_bind]

theorem boris_eq (P : Par) (hc0 : 0 < P.c) (e b v : Vec3 ℝ) (hv : v.length2 < P.c ^ 2) :
    ∃ γ, lorenzFactor P.c v.length2 = .ok γ ∧ 0 < γ ∧ γ ^ 2 * (P.c ^ 2 - v.length2) = P.c ^ 2 ∧
      let um := (v.smul γ).add (e.smul P.k)
      let p := (rotate ((b.smul (P.k * P.mu)).smul (lorenzFactorInv P.c um.length2)) um).add (e.smul P.k)
      borisRel P e b v = .ok (p.smul (lorenzFactorInv P.c p.length2)) := by
  obtain ⟨γ, eg, hg, h⟩ := lorenz_lt hc0 hv
  refine ⟨γ, eg, hg, h, ?_⟩
  unfold borisRel
  dsimp only
  rw [eg, Res.ok_bind]

theorem sq_len2 (v : Vec3 ℝ) : v.x ^ 2 + v.y ^ 2 + v.z ^ 2 = v.length2 := by unfold Vec3.length2; ring

theorem adaptive_fast (P : Par) (junk : Bool) (e b v : Vec3 ℝ) (h : P.lim < v.length2) :
    borisAdaptive P junk e b v = borisRel P e b v := by
  unfold borisAdaptive
  rw [sq_len2]
  simp [h]

theorem adaptive_slow (P : Par) (junk : Bool) (e b v : Vec3 ℝ) (h : v.length2 ≤ P.lim) :
    borisAdaptive P junk e b v = if junk then borisRel P e b v else .ok (borisClassic P e b v) := by
  unfold borisAdaptive
  rw [sq_len2]
  simp [not_lt.mpr h]

end Pusher
end Pico
