import Verif.Spec.PicScale
import Verif.Lemmas.Scale
import Verif.Lemmas.Dump
import Verif.Props.Pic

/-! C124: charges, masses, weights and fields only matter in certain combinations. -/

set_option linter.unusedSimpArgs false
set_option linter.unusedVariables false

namespace Pico
namespace Pic

open SMB Yee

variable {a b : ℝ}

theorem advance_weigh {dt : ℝ} {g : Geom ℝ} {w : Part.Walls} {p q : Part ℝ} (v : Vec3 ℝ) (h : Part.Advance dt g w (setVel p v) q) :
    Part.Advance dt g w (setVel (reweigh b p) v) (reweigh b q) := by
  obtain ⟨x, y, h1, h2, h3⟩ := h
  refine ⟨reweigh b x, reweigh b y, ?_, ?_, ?_⟩
  · unfold Part.backPos at h1 ⊢
    dsimp only at h1 ⊢
    split at h1
    · exact nomatch h1
    · rename_i k
      rw [if_neg (by exact k), ← Res.ok.inj h1]
      rfl
  · obtain ⟨s, h2, rfl⟩ := h2
    exact ⟨s, h2, rfl⟩
  · unfold Part.bindCell at h3 ⊢
    obtain ⟨r, e1, h3⟩ := Res.bind_ok h3
    obtain ⟨z, e2, h3⟩ := Res.bind_ok h3
    rw [← Res.ok.inj h3]
    show Part.bindCell g (Part.backVel (reweigh b y)) = _
    unfold Part.bindCell
    have e1' : cellNumber (Part.backVel (reweigh b y)).posR g.dr = .ok r := e1
    have e2' : cellNumber (Part.backVel (reweigh b y)).posZ g.dz = .ok z := e2
    rw [e1', e2']
    rfl

theorem rescaled_scaled (S : State) (s : ℝ) : AllScaled s S.M (S.rescaled s b).M := by
  intro i j c x y
  show (if _ then _ else _) = _
  unfold fac
  split
  · rw [one_mul]
  · rfl

theorem scaled_eq {s : ℝ} {M N : Solvers ℝ} (h : AllScaled s M N) : N = fun i j c x y => if c = .eps ∨ c = .sig then M i j c x y else s * M i j c x y := by
  funext i j c x y
  rw [h i j c x y]
  unfold fac
  split
  · rw [one_mul]
  · rfl

theorem step_rescaled (ha : a ≠ 0) (hb : b ≠ 0) {E : Env} (hz : Scheme E.dist) {S T : State} (h : Step E S T) :
    Step (E.rescaled a (a * a * b)) (S.rescaled (a * b) b) (T.rescaled (a * b) b) := by
  obtain ⟨M1, h1, h2, h3, h4, h5⟩ := h
  obtain ⟨N1, e1, H1⟩ := (solveMaxwell_scaled (domPar E.p E.domR E.domZ) E.domR E.domZ (rescaled_scaled (b := b) S (a * b))).of_ok h1
  refine ⟨N1, e1, ?_, ?_, h4, ?_⟩
  · intro i j hi hj sp hsp o ho
    obtain ⟨junk, v, hv, hA⟩ := h2 i j hi hj sp hsp o ho
    refine ⟨junk, v, ?_, advance_weigh v hA⟩
    rw [← hv]
    refine push_scaled (s := a * b) E.kind (P := E.pushPar sp.id) (Q := (E.rescaled a (a * a * b)).pushPar sp.id) rfl rfl rfl rfl ?_ junk E.e.pi _ (H1 i j) _ _ _
    unfold Pusher.Par.k
    show a * b * (a * E.charge sp.id * E.p.dt / (2 * (a * a * b * E.mass sp.id))) = E.charge sp.id * E.p.dt / (2 * E.mass sp.id)
    have n : a * a * b ≠ 0 := mul_ne_zero (mul_ne_zero ha ha) hb
    rw [← mul_div_assoc, ← mul_div_mul_left (E.charge sp.id * E.p.dt) (2 * E.mass sp.id) n]
    congr 1 <;> ring
  · intro t ht
    show reweigh b (T.heap t) = reweigh b (S.heap t)
    rw [h3 t ht]
  · have hq : ∀ i j, depositsOf (E.rescaled a (a * a * b)) (T.rescaled (a * b) b).heap T.D i j = (depositsOf E T.heap T.D i j).map (times (a * b)) := by
      intro i j
      unfold depositsOf
      rw [List.map_flatMap]
      congr 1
      funext sp
      rw [List.map_map]
      congr 1
      funext o
      show (⟨_, _, _, _, _, _, _, a * E.charge sp.id * (b * (T.heap o.tag).weight)⟩ : VB.Part ℝ) = ⟨_, _, _, _, _, _, _, a * b * (E.charge sp.id * (T.heap o.tag).weight)⟩
      congr 1
      ring
    obtain ⟨N2, e2, H2⟩ := (solveCurrent_scaled (s := a * b) hz E.p E.domR E.domZ E.e hq H1).of_ok h5
    rw [scaled_eq H2] at e2
    exact e2

theorem env_back (ha : a ≠ 0) {m : ℝ} (hm : m ≠ 0) (E : Env) : (E.rescaled a m).rescaled a⁻¹ m⁻¹ = E := by
  unfold Env.rescaled
  have h1 : (fun id => a⁻¹ * (a * E.charge id)) = E.charge := by
    funext id
    rw [inv_mul_cancel_left₀ ha]
  have h2 : (fun id => m⁻¹ * (m * E.mass id)) = E.mass := by
    funext id
    rw [inv_mul_cancel_left₀ hm]
  dsimp only
  rw [h1, h2]

theorem state_back {s : ℝ} (hs : s ≠ 0) (hb : b ≠ 0) (S : State) : (S.rescaled s b).rescaled s⁻¹ b⁻¹ = S := by
  unfold State.rescaled reweigh
  have h1 : (fun i j c x y => if c = Comp.eps ∨ c = .sig then (if c = Comp.eps ∨ c = .sig then S.M i j c x y else s * S.M i j c x y)
      else s⁻¹ * (if c = Comp.eps ∨ c = .sig then S.M i j c x y else s * S.M i j c x y)) = S.M := by
    funext i j c x y
    split
    · rfl
    · rw [inv_mul_cancel_left₀ hs]
  have h2 : (fun t => { S.heap t with weight := b⁻¹ * (b * (S.heap t).weight) }) = S.heap := by
    funext t
    rw [inv_mul_cancel_left₀ hb]
  dsimp only
  rw [h1, h2]

/-- C124, one step: if every charge is multiplied by `a`, every weight by `b` and every mass by `a²b`, and all fields and currents are
`ab` times as large, then the next states are those of the original simulation, with the same change; in particular the particles
take the same paths.  Any chamber, division, pusher and deposition scheme, any state, sane or not: one simulation stops with an
error exactly when the other one does. -/
theorem C124_step (ha : a ≠ 0) (hb : b ≠ 0) {E : Env} (hz : Scheme E.dist) (S U : State) :
    Step (E.rescaled a (a * a * b)) (S.rescaled (a * b) b) U ↔ ∃ T, Step E S T ∧ U = T.rescaled (a * b) b := by
  constructor
  · intro h
    have hs := mul_ne_zero ha hb
    have hm : a * a * b ≠ 0 := mul_ne_zero (mul_ne_zero ha ha) hb
    have := step_rescaled (inv_ne_zero ha) (inv_ne_zero hb) (E := E.rescaled a (a * a * b)) hz h
    rw [show a⁻¹ * a⁻¹ * b⁻¹ = (a * a * b)⁻¹ by rw [mul_inv, mul_inv], show a⁻¹ * b⁻¹ = (a * b)⁻¹ by rw [mul_inv], env_back ha hm, state_back hs hb] at this
    refine ⟨_, this, ?_⟩
    have k := state_back (inv_ne_zero hs) (inv_ne_zero hb) U
    rw [inv_inv, inv_inv] at k
    exact k.symm
  · rintro ⟨T, h, rfl⟩
    exact step_rescaled ha hb hz h

/-- C124, any number of steps. -/
theorem C124_run (ha : a ≠ 0) (hb : b ≠ 0) {E : Env} (hz : Scheme E.dist) (S U : State) (n : Nat) :
    Run (E.rescaled a (a * a * b)) (S.rescaled (a * b) b) n U ↔ ∃ T, Run E S n T ∧ U = T.rescaled (a * b) b := by
  induction n generalizing U with
  | zero =>
    constructor
    · intro h
      cases h
      exact ⟨S, .start, rfl⟩
    · rintro ⟨T, h, rfl⟩
      cases h
      exact .start
  | succ n ih =>
    constructor
    · intro h
      cases h with
      | step r s =>
        obtain ⟨T, r', rfl⟩ := (ih _).mp r
        obtain ⟨T', s', rfl⟩ := (C124_step ha hb hz T _).mp s
        exact ⟨T', .step r' s', rfl⟩
    · rintro ⟨T, h, rfl⟩
      cases h with
      | step r s => exact .step ((ih _).mpr ⟨_, r, rfl⟩) ((C124_step ha hb hz _ _).mpr ⟨T, s, rfl⟩)

/-- C124, opposite charges: if all charges change their sign, and all fields and currents of the start too, then the particles take
the same paths, and all fields and currents have the opposite sign at all times. -/
theorem C124_conjugate {E : Env} (hz : Scheme E.dist) (S U : State) (n : Nat) :
    Run (E.rescaled (-1) 1) (S.rescaled (-1) 1) n U ↔ ∃ T, Run E S n T ∧ U = T.rescaled (-1) 1 := by
  have := C124_run (a := -1) (b := 1) (by norm_num) (by norm_num) hz S U n
  norm_num at this
  exact this

/-- C124, macroparticles: the charge and the mass of the particles a macroparticle stands for only matter through their ratio and
through the charge of the whole macroparticle.  With `a` times the charge, `a` times the mass and the `a`-th part of the weights
the same happens, with the same fields and currents. -/
theorem C124_similar (ha : a ≠ 0) {E : Env} (hz : Scheme E.dist) (S U : State) (n : Nat) :
    Run (E.rescaled a a) (S.rescaled 1 a⁻¹) n U ↔ ∃ T, Run E S n T ∧ U = T.rescaled 1 a⁻¹ := by
  have := C124_run ha (inv_ne_zero ha) hz S U n
  rwa [mul_inv_cancel_right₀ ha, mul_inv_cancel₀ ha] at this

/-- C124 is not empty: a charge that runs for five steps, and the opposite charge on the same path. -/
example : ∃ T, (∀ U, Run (exEnv 1 1 1) (exState 0 (exPart (3/2) (5/2) (1/2) (1/3) 1 2)) 5 U ↔ U = T) ∧
    ∀ U, Run ((exEnv 1 1 1).rescaled (-1) 1) ((exState 0 (exPart (3/2) (5/2) (1/2) (1/3) 1 2)).rescaled (-1) 1) 5 U ↔ U = T.rescaled (-1) 1 := by
  have h := exEnv_chamber ex_div1 1
  have A : Alive (exEnv 1 1 1) [7] (exState 0 (exPart (3/2) (5/2) (1/2) (1/3) 1 2)) := by
    refine exState_alive ⟨rfl, ?_, ?_, ?_, ?_, ?_, ?_, ?_, ?_⟩ (by rfl)
    · rw [geom_eq h]
      constructor <;> norm_num [exEnv, exPart, low, hgt]
    all_goals norm_num [exEnv, exPart, vel, Vec3.length2, Int.floor_eq_iff]
  obtain ⟨T, r, _⟩ := C97_single h (Or.inl rfl) (Or.inr rfl) rfl rfl (by unfold HalfCell exEnv; norm_num) (ids := [7]) (by simp) A 5
  refine ⟨T, r, fun U => ?_⟩
  rw [C124_conjugate (Or.inr rfl)]
  simp only [r, exists_eq_left]

end Pic
end Pico
