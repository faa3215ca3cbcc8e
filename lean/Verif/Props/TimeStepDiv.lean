import Verif.Props.TimeStep
import Verif.Props.Waves
import Mathlib.Analysis.SpecialFunctions.Trigonometric.Bounds
import Mathlib.Analysis.Real.Pi.Bounds

/-! # C135 for divided chambers, and sharper limits -/

set_option linter.unusedSimpArgs false
set_option linter.unusedVariables false
set_option linter.unusedSectionVars false

namespace Pico
namespace Yee

/-- Every cell of the chamber is in a domain. -/
theorem cell_in_domain {K : Type _} {p : Par K} {domR domZ : Nat} (hd : Divided p domR domZ) {X Y : Int} (hl : p.logical X Y) :
    ∃ i j x y, CellOf p domR domZ i j x y ∧ X = low p.nr domR i + x ∧ Y = low p.nz domZ j + y := by
  obtain ⟨⟨x0, x1⟩, y0, y1⟩ := hl
  have one : ∀ (n d : Nat) (X : Int), 1 ≤ d → 2 * d ≤ n → d ∣ n → 0 ≤ X → X < n →
      ∃ i x, i < d ∧ X = low n d i + x ∧ 0 ≤ x ∧ x < hgt n d i := by
    intro n d X h1 h2 h4 a b
    obtain ⟨h, rfl⟩ := h4
    have hp : 0 < h := by
      rcases Nat.eq_zero_or_pos h with rfl | h0
      · omega
      · exact h0
    have lo : ∀ i, low (d * h) d i = h * i := fun i => by
      unfold low
      rw [Nat.mul_assoc, Nat.mul_div_cancel_left _ h1]
    have hi : ∀ i, hgt (d * h) d i = h := fun i => by
      unfold hgt
      rw [lo, lo, Nat.mul_succ]
      omega
    have a1 := Nat.div_add_mod X.toNat h
    have a2 := Nat.mod_lt X.toNat hp
    refine ⟨X.toNat / h, ((X.toNat % h : Nat) : Int), ?_, ?_, by omega, ?_⟩
    · rw [Nat.div_lt_iff_lt_mul hp]
      omega
    · rw [lo]
      omega
    · rw [hi]
      omega
  obtain ⟨i, x, a1, a2, a3⟩ := one _ _ X hd.r1 hd.r2 hd.r4 x0 x1
  obtain ⟨j, y, b1, b2, b3⟩ := one _ _ Y hd.z1 hd.z2 hd.z4 y0 y1
  exact ⟨i, j, x, y, ⟨a1, b1, a3, b3⟩, a2, b2⟩

/-- **C135 (partial), sharper.**  If the program would accept even seven quarters of the time step, the electric fields of a closed
chamber stay bounded once no current flows. -/
theorem C135_sharper_partial (cp cd : ℝ) (c : Limits.Conf) (ha : Accepted cp cd { c with step := 7 / 4 * c.step }) (p : Par ℝ)
    (hp : p.Good) (hc : Closed p) (hcp : Configured c p) (eps : Int → Int → ℝ)
    (hee : ∀ i k, p.logical i k → epsilon0 ≤ eps i k) (src : Nat → Comp → Int → Int → ℝ) (he : ∀ t, src t .eps = eps)
    (hs : ∀ t i k, p.logical i k → 0 ≤ src t .sig i k) (t0 : Nat) (hq : Quiet src t0) :
    ∃ S : Nat → Mem ℝ, (∀ t, wholeRun p src t = .ok (S t)) ∧ ∃ B : ℝ, ∀ n, t0 ≤ n → ∀ i k, p.logical i k →
      S (n + 1) .er i k ^ 2 ≤ B ∧ S (n + 1) .ep i k ^ 2 ≤ B ∧ S (n + 1) .ez i k ^ 2 ≤ B := by
  have e0 : 0 < epsilon0 := by unfold epsilon0; norm_num
  refine C77_components p hp hc eps epsilon0 e0 hee src he hs t0 hq ?_
  obtain ⟨h1, h2, _⟩ := (accepted_iff cp cd _ ⟨_, ha.choose_spec.1⟩).1 ha
  simp only at h1 h2
  rw [← hcp.dr, ← hcp.dt] at h1
  rw [← hcp.dz, ← hcp.dt] at h2
  have dr := hp.dr
  have dz := hp.dz
  have dt := hp.dt
  have cl : 0 < lightVel := by unfold lightVel; norm_num
  have cm : 1 ≤ epsilon0 * magnConst * lightVel ^ 2 := by unfold epsilon0 magnConst lightVel; norm_num
  have em : 0 < epsilon0 * magnConst := by unfold epsilon0 magnConst; norm_num
  unfold courant
  rw [hcp.mu]
  have y0 : 0 < lightVel * p.dt := by positivity
  have x1 : (lightVel * p.dt) ^ 2 / p.dr ^ 2 ≤ 16 / 49 := by
    rw [div_le_iff₀ (by positivity)]
    have := pow_le_pow_left₀ (by positivity) (show 7 / 4 * (lightVel * p.dt) ≤ p.dr by linarith) 2
    nlinarith
  have x2 : (lightVel * p.dt) ^ 2 / p.dz ^ 2 ≤ 16 / 49 := by
    rw [div_le_iff₀ (by positivity)]
    have := pow_le_pow_left₀ (by positivity) (show 7 / 4 * (lightVel * p.dt) ≤ p.dz by linarith) 2
    nlinarith
  have x3 : p.dt ^ 2 / (epsilon0 * magnConst) ≤ (lightVel * p.dt) ^ 2 := by
    rw [div_le_iff₀ em]
    have : 0 ≤ p.dt ^ 2 := by positivity
    calc p.dt ^ 2 = p.dt ^ 2 * 1 := by ring
      _ ≤ p.dt ^ 2 * (epsilon0 * magnConst * lightVel ^ 2) := by gcongr
      _ = _ := by ring
  calc p.dt ^ 2 / (epsilon0 * magnConst) * (2 / p.dr ^ 2 + 1 / p.dz ^ 2)
      ≤ (lightVel * p.dt) ^ 2 * (2 / p.dr ^ 2 + 1 / p.dz ^ 2) := by gcongr
    _ = 2 * ((lightVel * p.dt) ^ 2 / p.dr ^ 2) + (lightVel * p.dt) ^ 2 / p.dz ^ 2 := by ring
    _ < 1 := by linarith

/-- Where C135 fails, sharper: with square cells in chambers of at least 3 x 8 cells, already time steps of five sixths of a cell
of light travel let the fields grow beyond all bounds. -/
theorem C135_sharper_fails (p : Par ℝ) (hp : p.Good) (hc : Closed p) (mu : p.mu = magnConst) (hr : 3 ≤ p.nr) (hz : 8 ≤ p.nz)
    (sq : p.dz = p.dr) (hs : 5 / 6 * p.dr ≤ lightVel * p.dt) :
    ∃ j : Int → Int → ℝ, ∃ S : Nat → Mem ℝ, (∀ t, wholeRun p (pulse epsilon0 j) t = .ok (S t)) ∧
      ∀ B : ℝ, ∃ n i k, 1 ≤ n ∧ p.logical i k ∧ B < S (n + 1) .ep i k ^ 2 := by
  have e0 : 0 < epsilon0 := by unfold epsilon0; norm_num
  have dr := hp.dr
  have dt := hp.dt
  have cl : 0 < lightVel := by unfold lightVel; norm_num
  have em : 0 < epsilon0 * magnConst := by unfold epsilon0 magnConst; norm_num
  have cm : epsilon0 * magnConst * lightVel ^ 2 ≤ 251 / 250 := by unfold epsilon0 magnConst lightVel; norm_num
  have pi0 := Real.pi_pos
  have nz1 : (7 : ℝ) ≤ (p.nz : ℝ) - 1 := by
    have : (8 : ℝ) ≤ (p.nz : ℝ) := by exact_mod_cast hz
    linarith
  have cs : 179 / 200 ≤ Real.cos (Real.pi / ((p.nz : ℝ) - 1)) := by
    have a : Real.pi / ((p.nz : ℝ) - 1) ≤ 9 / 20 := by
      rw [div_le_iff₀ (by linarith)]
      have := Real.pi_lt_d2
      linarith
    have b : 0 ≤ Real.pi / ((p.nz : ℝ) - 1) := by
      have : 0 < (p.nz : ℝ) - 1 := by linarith
      positivity
    have := Real.one_sub_sq_div_two_le_cos (x := Real.pi / ((p.nz : ℝ) - 1))
    nlinarith
  have t0 : 25 / 36 * (250 / 251) * p.dr ^ 2 ≤ p.dt ^ 2 / (epsilon0 * magnConst) := by
    rw [le_div_iff₀ em]
    have h1 : (5 / 6 * p.dr) ^ 2 ≤ (lightVel * p.dt) ^ 2 := pow_le_pow_left₀ (by positivity) hs 2
    have h2 : epsilon0 * magnConst * (lightVel * p.dt) ^ 2 ≤ 251 / 250 * p.dt ^ 2 := by
      have : 0 ≤ p.dt ^ 2 := by positivity
      calc epsilon0 * magnConst * (lightVel * p.dt) ^ 2 = epsilon0 * magnConst * lightVel ^ 2 * p.dt ^ 2 := by ring
        _ ≤ _ := by gcongr
    have h3 : epsilon0 * magnConst * (5 / 6 * p.dr) ^ 2 ≤ epsilon0 * magnConst * (lightVel * p.dt) ^ 2 := by gcongr
    nlinarith
  obtain ⟨j, S, run, nz, gr⟩ := C135_grows p hp hc hr (by omega) epsilon0 e0 (by
    rw [mu, sq, ← add_div, mul_div_assoc', le_div_iff₀ (by positivity)]
    have : 0 < p.dr ^ 2 := by positivity
    nlinarith)
  refine ⟨j, S, run, fun B => ?_⟩
  have hl : p.logical 1 1 := by unfold Par.logical; omega
  have a0 : 0 < |S 1 .ep 1 1| := abs_pos.2 (nz 1 le_rfl (by omega))
  obtain ⟨n, hn⟩ := exists_nat_gt ((|B| + 1) / |S 1 .ep 1 1|)
  refine ⟨n + 1, 1, 1, by omega, hl, ?_⟩
  have g := gr (n + 1) 1 hl
  rw [div_lt_iff₀ a0] at hn
  have n0 : (0 : ℝ) ≤ (n : ℝ) := by positivity
  have big : |B| + 1 < |S (n + 1 + 1) .ep 1 1| := by
    push_cast at g
    nlinarith
  have b0 := abs_nonneg B
  have b1 := le_abs_self B
  rw [← sq_abs]
  nlinarith

/-- The sources of the domains are those of the chamber. -/
def parts {K : Type _} (p : Par K) (domR domZ : Nat) (src : Nat → Comp → Int → Int → K) (t i j : Nat) (c : Comp) (x y : Int) : K :=
  src t c (low p.nr domR i + x) (low p.nz domZ j + y)

theorem parts_same {K : Type _} (p : Par K) (domR domZ : Nat) (src : Nat → Comp → Int → Int → K) (t : Nat) :
    SameSources p domR domZ (parts p domR domZ src t) (src t) := fun _ _ _ _ _ _ _ => rfl

/-- C135 (partial) for every division of the chamber: seven quarters of the time step are accepted. -/
theorem C135_divided_partial (cp cd : ℝ) (c : Limits.Conf) (ha : Accepted cp cd { c with step := 7 / 4 * c.step }) (p : Par ℝ)
    (hp : p.Good) (hc : Closed p) (hcp : Configured c p) (eps : Int → Int → ℝ)
    (hee : ∀ i k, p.logical i k → epsilon0 ≤ eps i k) (src : Nat → Comp → Int → Int → ℝ) (he : ∀ t, src t .eps = eps)
    (hs : ∀ t i k, p.logical i k → 0 ≤ src t .sig i k) (t0 : Nat) (hq : Quiet src t0) {domR domZ : Nat}
    (hd : Divided p domR domZ) (loc : Nat → Nat → Nat → Comp → Int → Int → ℝ)
    (hl : ∀ t, SameSources p domR domZ (loc t) (src t)) :
    ∃ M : Nat → Solvers ℝ, (∀ t, dividedRun (domPar p domR domZ) domR domZ loc t = .ok (M t)) ∧
      ∃ B : ℝ, ∀ n, t0 ≤ n → ∀ i j x y, CellOf p domR domZ i j x y →
        M (n + 1) i j .er x y ^ 2 ≤ B ∧ M (n + 1) i j .ep x y ^ 2 ≤ B ∧ M (n + 1) i j .ez x y ^ 2 ≤ B := by
  obtain ⟨S, h, B, hB⟩ := C135_sharper_partial cp cd c ha p hp hc hcp eps hee src he hs t0 hq
  choose M m e1 e2 e3 using C62_cells p hd loc src hl
  refine ⟨M, e1, B, fun n hn i j x y hx => ?_⟩
  have em : m (n + 1) = S (n + 1) := Res.ok.inj ((e2 (n + 1)).symm.trans (h (n + 1)))
  rw [e3 (n + 1) .er i j x y rfl hx, e3 (n + 1) .ep i j x y rfl hx, e3 (n + 1) .ez i j x y rfl hx, em]
  obtain ⟨hi, hj, hl⟩ := (cellOf_iff p domR domZ i j x y).mp hx
  exact hB n hn _ _ (cell_logical hd hi hj hl)

/-- Where C135 fails, for every division of the chamber: the program accepts the time step without a message, and the fields of
some domain grow beyond all bounds after a single pulse of current. -/
theorem C135_divided_fails (cp cd : ℝ) (c : Limits.Conf) (ha : Accepted cp cd c) (p : Par ℝ) (hp : p.Good) (hc : Closed p)
    (hcp : Configured c p) (hr : 3 ≤ p.nr) (hz : 8 ≤ p.nz) (sq : c.dz = c.dr) (hs : 5 / 6 * c.dr ≤ lightVel * c.step)
    {domR domZ : Nat} (hd : Divided p domR domZ) :
    ∃ j : Int → Int → ℝ, ∃ M : Nat → Solvers ℝ,
      (∀ t, dividedRun (domPar p domR domZ) domR domZ (parts p domR domZ (pulse epsilon0 j)) t = .ok (M t)) ∧
      ∀ B : ℝ, ∃ n a b x y, 1 ≤ n ∧ CellOf p domR domZ a b x y ∧ B < M (n + 1) a b .ep x y ^ 2 := by
  obtain ⟨j, S, h, hB⟩ := C135_sharper_fails p hp hc hcp.mu hr hz (by rw [hcp.dz, hcp.dr, sq]) (by rw [hcp.dr, hcp.dt]; exact hs)
  choose M m e1 e2 e3 using C62_cells p hd (parts p domR domZ (pulse epsilon0 j)) (pulse epsilon0 j) (parts_same p domR domZ _)
  refine ⟨j, M, e1, fun B => ?_⟩
  obtain ⟨n, X, Y, hn, hl, hb⟩ := hB B
  obtain ⟨a, b, x, y, hx, rfl, rfl⟩ := cell_in_domain hd hl
  refine ⟨n, a, b, x, y, hn, hx, ?_⟩
  rw [e3 (n + 1) .ep a b x y rfl hx, Res.ok.inj ((e2 (n + 1)).symm.trans (h (n + 1)))]
  exact hb

/-! ### The hypotheses are met -/

/-- A chamber of 4 x 8 cells in two domains. -/
noncomputable def exTwo : Par ℝ := ⟨1 / 1000, 1 / 1000, 1 / 1000 / lightVel, magnConst, 0, 4, 8, ⟨true, true, true, true⟩⟩

theorem exTwo_good : exTwo.Good := by
  have cl : 0 < lightVel := by unfold lightVel; norm_num
  refine ⟨?_, ?_, ?_, ?_, by decide, by decide, by decide, by decide, by decide, by decide, by decide⟩ <;>
    (unfold exTwo; dsimp only)
  all_goals first | positivity | (unfold magnConst; norm_num)

theorem exTwo_divided : Divided exTwo 1 2 := ⟨by decide, by decide, by decide, by decide, by decide, by decide, by decide, by decide, by decide⟩

example : ∃ j : Int → Int → ℝ, ∃ M : Nat → Solvers ℝ,
    (∀ t, dividedRun (domPar exTwo 1 2) 1 2 (parts exTwo 1 2 (pulse epsilon0 j)) t = .ok (M t)) ∧
    ∀ B : ℝ, ∃ n a b x y, 1 ≤ n ∧ CellOf exTwo 1 2 a b x y ∧ B < M (n + 1) a b .ep x y ^ 2 :=
  C135_divided_fails _ _ exTightConf exTight_accepted exTwo exTwo_good ⟨rfl, by decide, by decide, rfl, rfl, rfl, rfl⟩
    ⟨rfl, rfl, rfl, rfl⟩ (by decide) (by decide) rfl
    (by
      show 5 / 6 * (1 / 1000) ≤ lightVel * (1 / 1000 / lightVel)
      unfold lightVel; norm_num) exTwo_divided

/-- With four sevenths of that time step the partial theorems apply. -/
example : Accepted 56.3803 7433.944
    { ({ exTightConf with step := 4 / 7 * exTightConf.step } : Limits.Conf) with step := 7 / 4 * (4 / 7 * exTightConf.step) } := by
  have e : 7 / 4 * (4 / 7 * exTightConf.step) = exTightConf.step := by ring
  rw [e]
  exact exTight_accepted

end Yee
end Pico
