import Verif.Lemmas.Units
import Verif.Props.PicScale
import Verif.Props.PicLaws

/-! C129: the same simulation in other units. -/

set_option linter.unusedSimpArgs false
set_option linter.unusedVariables false
set_option linter.unusedSectionVars false

namespace Pico
namespace Pic

open SMB Yee

/-- The pushers of Boris. -/
def BorisKind (k : Pusher.Kind) : Prop := k = .boris ∨ k = .borisRelativistic ∨ k = .borisAdaptive

namespace Units

variable (U : Units)

/-- Back to the old units. -/
noncomputable def inv : Units where
  len := U.len⁻¹
  time := U.time⁻¹
  ef := U.ef⁻¹
  eps := U.eps⁻¹
  q := U.q⁻¹
  len_pos := inv_pos.mpr U.len_pos
  time_pos := inv_pos.mpr U.time_pos
  ef_ne := inv_ne_zero U.ef_ne
  eps_ne := inv_ne_zero U.eps_ne
  q_ne := inv_ne_zero U.q_ne

theorem inv_inv' : U.inv.inv = U := by
  unfold inv
  simp only [inv_inv]

theorem inv_vel : U.inv.vel * U.vel = 1 := by
  unfold vel inv
  have := U.len_ne; have := U.time_ne
  field_simp

theorem inv_mu : U.inv.mu * U.mu = 1 := by
  unfold mu inv
  have := U.len_ne; have := U.time_ne; have := U.eps_ne
  field_simp

theorem inv_mass : U.inv.mass * U.mass = 1 := by
  unfold mass inv
  have := U.len_ne; have := U.time_ne; have := U.ef_ne; have := U.q_ne
  field_simp

theorem inv_weight : U.inv.weight * U.weight = 1 := by
  unfold weight cur inv
  have := U.len_ne; have := U.time_ne; have := U.ef_ne; have := U.q_ne; have := U.eps_ne
  field_simp

theorem inv_comp (c : Yee.Comp) : U.inv.comp c * U.comp c = 1 := by
  have := U.len_ne; have := U.time_ne; have := U.ef_ne; have := U.q_ne; have := U.eps_ne
  cases c <;> simp only [comp, hf, cur, inv] <;> field_simp

theorem env_back (E : Env) : U.inv.env (U.env E) = E := by
  have l : U.inv.len * U.len = 1 := inv_mul_cancel₀ U.len_ne
  have t : U.inv.time * U.time = 1 := inv_mul_cancel₀ U.time_ne
  have q : U.inv.q * U.q = 1 := inv_mul_cancel₀ U.q_ne
  have v := U.inv_vel
  have m := U.inv_mu
  have a := U.inv_mass
  unfold env par consts
  dsimp only
  simp only [← mul_assoc, ← mul_pow, l, t, q, v, m, a, one_mul, one_pow]

theorem state_back (S : State) : U.inv.state (U.state S) = S := by
  have l : U.inv.len * U.len = 1 := inv_mul_cancel₀ U.len_ne
  have v := U.inv_vel
  have w := U.inv_weight
  unfold state part
  dsimp only
  simp only [← mul_assoc, l, v, w, U.inv_comp, one_mul]

theorem state_inv (S : State) : U.state (U.inv.state S) = S := by
  have := U.inv.state_back S
  rwa [inv_inv'] at this

variable {U}

theorem env_geom (E : Env) (i j : Nat) : (U.env E).geom i j = U.geom (E.geom i j) := by
  unfold Env.geom
  show (domCtx (U.par E.p) E.domR E.domZ (U.consts E.e) i j).g = _
  rw [domCtx_units]
  rfl

theorem straight_units {E : Env} {T : State} (h : Straight E T) : Straight (U.env E) (U.state T) := by
  intro i j hi hj sp hsp o ho hz
  have P := U.len_pos
  rw [env_geom]
  show |U.len * _ - U.len * _| < U.len * _ ∨ ⌊U.len * _ / (U.len * _)⌋ = ⌊U.len * _ / (U.len * _)⌋
  rw [abs_units, mul_div_mul_left _ _ U.len_ne, mul_div_mul_left _ _ U.len_ne]
  exact h i j hi hj sp hsp o ho ((abs_units _ _ _).mp hz)

theorem step_units {E : Env} (hk : BorisKind E.kind) (hv : E.dist = VB.currentDistribution) {S T : State} (hT : Straight E T) (h : Step E S T) :
    Step (U.env E) (U.state S) (U.state T) := by
  obtain ⟨M1, h1, h2, h3, h4, h5⟩ := h
  have H0 : U.All S.M (U.state S).M := fun i j c x y => rfl
  obtain ⟨N1, e1, H1⟩ := (solveMaxwell_units E.p E.domR E.domZ H0).of_ok h1
  refine ⟨N1, e1, ?_, ?_, h4, ?_⟩
  · intro i j hi hj sp hsp o ho
    obtain ⟨junk, v, hv, hA⟩ := h2 i j hi hj sp hsp o ho
    refine ⟨junk, v.smul U.vel, ?_, ?_⟩
    · rw [env_geom]
      unfold Pusher.push at hv ⊢
      obtain ⟨e, he, hv⟩ := Res.bind_ok hv
      obtain ⟨b, hb, hv⟩ := Res.bind_ok hv
      obtain ⟨f1, f2⟩ := field_units E.e.pi (E.geom i j) (H1 i j) (S.heap o.tag).posR (S.heap o.tag).posZ
      obtain ⟨_, g1, rfl⟩ := f1.of_ok he
      obtain ⟨_, g2, rfl⟩ := f2.of_ok hb
      obtain ⟨_, g3, rfl⟩ := (boris_units (U := U) hk (E.pushPar sp.id) junk e b (Pic.vel (S.heap o.tag))).of_ok hv
      have : Pic.vel ((U.state S).heap o.tag) = (Pic.vel (S.heap o.tag)).smul U.vel := by
        unfold Pic.vel Vec3.smul state part
        dsimp only
        congr 1 <;> ring
      rw [this, ← g3]
      show (Interp.getE E.e.pi (U.geom (E.geom i j)) (N1 i j) (U.len * (S.heap o.tag).posR) (U.len * (S.heap o.tag).posZ) >>= _) = _
      rw [g1, Res.ok_bind]
      show (Interp.getH E.e.pi (U.geom (E.geom i j)) (N1 i j) (U.len * (S.heap o.tag).posR) (U.len * (S.heap o.tag).posZ) >>= _) = _
      rw [g2, Res.ok_bind]
      rfl
    · have := advance_units (U := U) hA
      rw [env_geom]
      have e : U.part (setVel (S.heap o.tag) v) = setVel ((U.state S).heap o.tag) (v.smul U.vel) := by
        unfold setVel part state Vec3.smul part
        dsimp only
        congr 1 <;> ring
      rw [e] at this
      exact this
  · intro t ht
    show U.part (T.heap t) = U.part (S.heap t)
    rw [h3 t ht]
  · have hq : ∀ i j, depositsOf (U.env E) (U.state T).heap T.D i j = (depositsOf E T.heap T.D i j).map U.dep := by
      intro i j
      unfold depositsOf
      rw [List.map_flatMap]
      congr 1
      funext sp
      rw [List.map_map]
      congr 1
      funext o
      show (⟨_, _, _, _, _, _, _, U.q * E.charge sp.id * (U.weight * (T.heap o.tag).weight)⟩ : VB.Part ℝ) = ⟨_, _, _, _, _, _, _, U.load * (E.charge sp.id * (T.heap o.tag).weight)⟩
      congr 1
      unfold weight load
      have := U.q_ne
      field_simp
    have hp : ∀ i j, i < E.domR → j < E.domZ → ∀ a ∈ depositsOf E T.heap T.D i j, Even (domCtx E.p E.domR E.domZ E.e i j) a := by
      intro i j hi hj a ha
      obtain ⟨sp, hsp, ha⟩ := List.mem_flatMap.mp ha
      obtain ⟨o, ho, rfl⟩ := List.mem_map.mp ha
      exact hT i j hi hj sp hsp o ho
    rw [hv] at h5
    obtain ⟨N2, e2, H2⟩ := (solveCurrent_units (U := U) E.p E.domR E.domZ E.e hq hp H1).of_ok h5
    have : N2 = (U.state T).M := by
      funext i j c x y
      exact H2 i j c x y
    rw [this] at e2
    show solveCurrent E.dist _ _ _ _ _ _ = _
    rw [hv]
    exact e2

end Units

/-- C129, the fields: in other units the field solver does the same.  Any chamber and division, any state, sane or not. -/
theorem C129_fields (U : Units) (p : Par ℝ) (R Z : Nat) (M N : Solvers ℝ) :
    solveMaxwell (domPar (U.par p) R Z) R Z (fun i j c x y => U.comp c * M i j c x y) = .ok (fun i j c x y => U.comp c * N i j c x y) ↔
    solveMaxwell (domPar p R Z) R Z M = .ok N := by
  have H := Units.solveMaxwell_units (U := U) p R Z (M := M) (N := fun i j c x y => U.comp c * M i j c x y) fun i j c x y => rfl
  constructor
  · intro h
    rw [h] at H
    cases e : solveMaxwell (domPar p R Z) R Z M with
    | ok N' =>
      rw [e] at H
      congr 1
      funext i j c x y
      have q : U.comp c * N i j c x y = U.comp c * N' i j c x y := H i j c x y
      have n : U.comp c ≠ 0 := right_ne_zero_of_mul_eq_one (U.inv_comp c)
      exact (mul_left_cancel₀ n q).symm
    | fatal => rw [e] at H; exact H.elim
    | ub => rw [e] at H; exact H.elim
  · intro h
    obtain ⟨N', e, H⟩ := H.of_ok h
    rw [e]
    congr 1
    funext i j c x y
    exact H i j c x y

/-- C129, one step, with a pusher of Boris and the deposition of Villasenor and Buneman: the same step happens in the old and in the new
units, provided that no particle has moved purely radially from one cell into another. -/
theorem C129_step_partial (U : Units) {E : Env} (hk : BorisKind E.kind) (hv : E.dist = VB.currentDistribution) (S T : State) (hT : Straight E T) :
    Step (U.env E) (U.state S) (U.state T) ↔ Step E S T := by
  constructor
  · intro h
    have := Units.step_units (U := U.inv) (E := U.env E) hk hv (Units.straight_units hT) h
    rwa [U.env_back, U.state_back, U.state_back] at this
  · exact Units.step_units hk hv hT

/-- C129, any number of steps: `s` is the history of a simulation in the old units exactly when the history in the new units is that of
the same simulation. -/
theorem C129_run_partial (U : Units) {E : Env} (hk : BorisKind E.kind) (hv : E.dist = VB.currentDistribution) (s : Nat → State) (n : Nat) (hT : ∀ k < n, Straight E (s (k + 1))) :
    (∀ k < n, Step (U.env E) (U.state (s k)) (U.state (s (k + 1)))) ↔ ∀ k < n, Step E (s k) (s (k + 1)) :=
  ⟨fun h k hn => (C129_step_partial U hk hv _ _ (hT k hn)).mp (h k hn), fun h k hn => (C129_step_partial U hk hv _ _ (hT k hn)).mpr (h k hn)⟩

/-- C129: nothing else happens in the new units. -/
theorem C129_all_partial (U : Units) {E : Env} (hk : BorisKind E.kind) (hv : E.dist = VB.currentDistribution) (S T' : State) (hT : Straight (U.env E) T') :
    Step (U.env E) (U.state S) T' ↔ ∃ T, T' = U.state T ∧ Step E S T := by
  have hT' : Straight E (U.inv.state T') := by
    have := Units.straight_units (U := U.inv) hT
    rwa [U.env_back] at this
  have := C129_step_partial U hk hv S (U.inv.state T') hT'
  rw [U.state_inv] at this
  rw [this]
  constructor
  · intro h
    exact ⟨_, (U.state_inv T').symm, h⟩
  · rintro ⟨T, rfl, h⟩
    rwa [U.state_back]

/-! ### Where units do matter -/

/-- Surroundings of the counterexamples: four cells of size one in each direction. -/
noncomputable def exCtx : VB.Ctx ℝ := ⟨⟨1, 1, 0, 0, 4, 4⟩, 1, 3, 1/1000, fun _ => 0⟩

theorem exCell {a : ℝ} (n : Int) (h : (n : ℝ) ≤ a) (h' : a < n + 1) (hn : 0 ≤ n) (hn' : n < 10) : cellNumber a 1 = .ok n := by
  unfold cellNumber
  rw [div_one, Int.floor_eq_iff.mpr ⟨h, h'⟩]
  exact if_pos (by omega)

/-- C129 fails for particles that move purely radially into another cell: for every change of the unit of length there is a particle whose
current is not the same in the new units. -/
theorem C129_radial_fails (U : Units) (hU : U.len ≠ 1) : ∃ (x : VB.Ctx ℝ) (p : VB.Part ℝ) (m n : Mem ℝ), VB.rzParticle x p (fun _ _ _ => 0) = .ok m ∧
    VB.rzParticle (U.ctx x) (U.dep p) (fun _ _ _ => 0) = .ok n ∧ n .jr 2 2 ≠ U.cur * m .jr 2 2 := by
  have L := U.len_ne
  have T := U.time_ne
  have P := U.len_pos
  let p : VB.Part ℝ := ⟨9/4, 5/2, 3/2, 5/2, 0, 2, 2, 1⟩
  have c1 : ∀ a, cellNumber (U.len * a) (U.ctx exCtx).g.dr = cellNumber a exCtx.g.dr := fun a => Units.cellNumber_units a _
  have c2 : ∀ a, cellNumber (U.len * a) (U.ctx exCtx).g.dz = cellNumber a exCtx.g.dz := fun a => Units.cellNumber_units a _
  have q1 : cellNumber (9/4 : ℝ) exCtx.g.dr = .ok 2 := exCell 2 (by norm_num) (by norm_num) (by norm_num) (by norm_num)
  have q2 : cellNumber (3/2 : ℝ) exCtx.g.dr = .ok 1 := exCell 1 (by norm_num) (by norm_num) (by norm_num) (by norm_num)
  have q3 : cellNumber (5/2 : ℝ) exCtx.g.dz = .ok 2 := exCell 2 (by norm_num) (by norm_num) (by norm_num) (by norm_num)
  have o1 : VB.rzOps exCtx p = .ok (VB.strictRadial exCtx (9/4) (5/2) (3/2) 2 1 2 1) := by
    unfold VB.rzOps
    show (cellNumber (3/2 : ℝ) exCtx.g.dr >>= fun iO => cellNumber (5/2 : ℝ) exCtx.g.dz >>= fun kO => _) = _
    rw [q2, Res.ok_bind, q3, Res.ok_bind]
    dsimp only [p]
    rw [if_neg (by norm_num [exCtx]), if_pos (by norm_num [exCtx])]
    unfold VB.strictMotion
    rw [q1, q2, q3]
    simp only [Res.ok_bind]
    rw [if_neg (by norm_num [exCtx]), if_neg (by norm_num [exCtx]), if_pos (by norm_num [exCtx])]
  have o2 : VB.rzOps (U.ctx exCtx) (U.dep p) = .ok (VB.strictRadial (U.ctx exCtx) (U.len * (9/4)) (U.len * (5/2)) (U.len * (3/2)) 2 1 2 (U.load * 1)) := by
    have e3 : ∀ a b : ℝ, (|U.len * a - U.len * b| < (U.ctx exCtx).mnzl) = (|a - b| < exCtx.mnzl) := fun a b => propext (Units.abs_units _ _ _)
    unfold VB.rzOps
    show (cellNumber (U.len * (3/2) : ℝ) (U.ctx exCtx).g.dr >>= fun iO => cellNumber (U.len * (5/2) : ℝ) (U.ctx exCtx).g.dz >>= fun kO => _) = _
    rw [c1, c2, q2, Res.ok_bind, q3, Res.ok_bind]
    dsimp only [p, Units.dep]
    have f1 : ∀ (a : ℝ) (i : Int), (U.len * a = ((i : ℝ) + 1) * (U.ctx exCtx).g.dr) = (a = ((i : ℝ) + 1) * exCtx.g.dr) := fun a i => propext (Units.eq_units rfl (mul_left_comm _ _ _))
    simp only [f1, e3]
    rw [if_neg (by norm_num [exCtx]), if_pos (by norm_num [exCtx])]
    unfold VB.strictMotion
    rw [c1, c1, c2, q1, q2, q3]
    simp only [Res.ok_bind, e3]
    rw [if_neg (by norm_num [exCtx]), if_neg (by norm_num [exCtx]), if_pos (by norm_num [exCtx])]
  have run : ∀ (g : Geom ℝ), g.nr = 4 → g.nz = 4 → ∀ a b c d : ℝ, ∃ m, VB.runOps g [.inc .jr 1 2 a, .inc .jr 1 3 b, .inc .jr 2 2 c, .inc .jr 2 3 d] (fun _ _ _ => 0) = .ok m ∧ m .jr 2 2 = c := by
    intro g h1 h2 a b c d
    have i1 : ∀ i k : Int, 0 ≤ i → i < 4 → 0 ≤ k → k < 4 → VB.insideG g i k := by
      intro i k a b c d
      unfold VB.insideG
      rw [h1, h2]
      omega
    obtain ⟨m, r, v⟩ := VB.runOps_inc g [.inc .jr 1 2 a, .inc .jr 1 3 b, .inc .jr 2 2 c, .inc .jr 2 3 d] (by
      intro o ho
      simp only [List.mem_cons, List.not_mem_nil, or_false] at ho
      rcases ho with rfl | rfl | rfl | rfl <;> exact i1 _ _ (by omega) (by omega) (by omega) (by omega)) (fun _ _ _ => 0)
    refine ⟨m, r, ?_⟩
    rw [v]
    simp [VB.tot, VB.Op.val]
  obtain ⟨m, r1, v1⟩ := run exCtx.g rfl rfl _ _ _ _
  obtain ⟨n, r2, v2⟩ := run (U.ctx exCtx).g rfl rfl _ _ _ _
  refine ⟨exCtx, p, m, n, ?_, ?_, ?_⟩
  · unfold VB.rzParticle
    rw [o1, Res.ok_bind]
    exact r1
  · unfold VB.rzParticle
    rw [o2, Res.ok_bind]
    exact r2
  · rw [v1, v2]
    have d1 : VB.densStrict (U.ctx exCtx) (U.load * 1) (((2 : Int) + 1/2) * (U.ctx exCtx).g.dr) = U.cur / U.len ^ 2 * VB.densStrict exCtx 1 (((2 : Int) + 1/2) * exCtx.g.dr) := by
      rw [← Units.densStrict_units]
      congr 1
      show ((2 : Int) + 1/2 : ℝ) * (U.len * 1) = U.len * (((2 : Int) + 1/2) * 1)
      ring
    rw [d1]
    have C : U.cur ≠ 0 := div_ne_zero (mul_ne_zero U.ef_ne U.eps_ne) T
    intro h
    simp only [VB.radialBracket2, VB.densStrict, exCtx, Units.ctx, Units.geom] at h
    have b : U.len ^ 2 = 1 := by
      push_cast at h
      have e1 : (2 : ℝ) * (U.len * 1) + (U.len * (9/4) - 2 * (U.len * 1)) = 9/4 * U.len := by ring
      rw [e1] at h
      field_simp at h
      ring_nf at h
      nlinarith
    exact hU (by nlinarith [sq_nonneg (U.len - 1)])

/-- C129 fails for the zigzag scheme, which takes lengths for fractions of a cell: for every change of the unit of length there is a particle
whose current is not the same in the new units. -/
theorem C129_zigzag_fails (U : Units) (hU : U.len ≠ 1) : ∃ (x : VB.Ctx ℝ) (p : VB.Part ℝ) (m n : Mem ℝ), ZigZag.particle x p (fun _ _ _ => 0) = .ok m ∧
    ZigZag.particle (U.ctx x) (U.dep p) (fun _ _ _ => 0) = .ok n ∧ n .jr 1 3 ≠ U.cur * m .jr 1 3 := by
  have L := U.len_ne
  have T := U.time_ne
  have P := U.len_pos
  let p : VB.Part ℝ := ⟨7/4, 5/2, 3/2, 5/2, 0, 1, 2, 1⟩
  have c1 : ∀ a, cellNumber (U.len * a) (U.ctx exCtx).g.dr = cellNumber a exCtx.g.dr := fun a => Units.cellNumber_units a _
  have c2 : ∀ a, cellNumber (U.len * a) (U.ctx exCtx).g.dz = cellNumber a exCtx.g.dz := fun a => Units.cellNumber_units a _
  have q1 : cellNumber (7/4 : ℝ) exCtx.g.dr = .ok 1 := exCell 1 (by norm_num) (by norm_num) (by norm_num) (by norm_num)
  have q2 : cellNumber (3/2 : ℝ) exCtx.g.dr = .ok 1 := exCell 1 (by norm_num) (by norm_num) (by norm_num) (by norm_num)
  have q3 : cellNumber (5/2 : ℝ) exCtx.g.dz = .ok 2 := exCell 2 (by norm_num) (by norm_num) (by norm_num) (by norm_num)
  have q4 : cellNumber ((7/4 + 3/2) / 2 : ℝ) exCtx.g.dr = .ok 1 := exCell 1 (by norm_num) (by norm_num) (by norm_num) (by norm_num)
  have o1 : ZigZag.particleOps exCtx p = .ok (ZigZag.cellOps exCtx p 1 1 2 2 1) := by
    unfold ZigZag.particleOps
    dsimp only [p]
    rw [q1, q2, q3, q4]
    rfl
  have o2 : ZigZag.particleOps (U.ctx exCtx) (U.dep p) = .ok (ZigZag.cellOps (U.ctx exCtx) (U.dep p) 1 1 2 2 1) := by
    unfold ZigZag.particleOps
    dsimp only [p, Units.dep]
    rw [show (U.len * (7/4) + U.len * (3/2)) / 2 = U.len * ((7/4 + 3/2) / 2) by ring, c1, c1, c2, c1, q1, q2, q3, q4]
    rfl
  have inc : ∀ (x : VB.Ctx ℝ) (a : VB.Part ℝ), x.g.nr = 4 → x.g.nz = 4 → x.g.r0 = 0 → x.g.z0 = 0 → ∀ o ∈ ZigZag.cellOps x a 1 1 2 2 1, o.Inc x.g := by
    intro x a h1 h2 h3 h4 o ho
    unfold ZigZag.cellOps at ho
    simp only [List.mem_cons, List.not_mem_nil, or_false, h3, h4] at ho
    rcases ho with rfl | rfl | rfl | rfl | rfl | rfl | rfl | rfl | rfl | rfl | rfl | rfl <;>
      (unfold VB.Op.Inc VB.insideG; rw [h1, h2]; norm_num)
  obtain ⟨m, r1, v1⟩ := VB.runOps_inc exCtx.g _ (inc exCtx p rfl rfl rfl rfl) (fun _ _ _ => 0)
  obtain ⟨n, r2, v2⟩ := VB.runOps_inc (U.ctx exCtx).g _ (inc (U.ctx exCtx) (U.dep p) rfl rfl rfl rfl) (fun _ _ _ => 0)
  refine ⟨exCtx, p, m, n, ?_, ?_, ?_⟩
  · unfold ZigZag.particle
    rw [o1, Res.ok_bind]
    exact r1
  · unfold ZigZag.particle
    rw [o2, Res.ok_bind]
    exact r2
  · rw [v1, v2]
    have C : U.cur ≠ 0 := div_ne_zero (mul_ne_zero U.ef_ne U.eps_ne) T
    intro h
    simp [VB.tot, VB.Op.val, ZigZag.cellOps, ZigZag.relayPoint, exCtx, Units.ctx, Units.geom, Units.dep, p, cellVolume, Units.load] at h
    rw [max_eq_right (by linarith : U.len ≤ (U.len * (3 / 2) + U.len * (7 / 4)) / 2), min_eq_right (by linarith : (U.len * (3 / 2) + U.len * (7 / 4)) / 2 ≤ U.len + U.len),
      max_eq_right (by linarith : 2 * U.len ≤ U.len * (5 / 2)), min_eq_right (by linarith : U.len * (5 / 2) ≤ 2 * U.len + U.len)] at h
    norm_num at h
    field_simp at h
    apply hU
    ring_nf at h
    linarith

/-- The inverse Lorentz factor that the pushers of Vay and of Higuera and Cary compute: `s = w² + 1 - 1`, `B² = 1`. -/
theorem invGamma_one (w : ℝ) : ∃ q, 1 ≤ q ∧ q * q - w ^ 2 * q - 1 = 0 ∧ Pusher.invGammaNew (w ^ 2) 1 = .ok (1 / Real.sqrt q) := by
  refine ⟨1/2 * (w ^ 2 + Real.sqrt (w ^ 2 * w ^ 2 + 4 * 1)), ?_, ?_, ?_⟩
  · have : 2 ≤ Real.sqrt (w ^ 2 * w ^ 2 + 4 * 1) := Real.le_sqrt_of_sq_le (by nlinarith [sq_nonneg (w ^ 2)])
    have := sq_nonneg w
    generalize Real.sqrt (w ^ 2 * w ^ 2 + 4 * 1) = y at *
    linarith
  · have : Real.sqrt (w ^ 2 * w ^ 2 + 4 * 1) * Real.sqrt (w ^ 2 * w ^ 2 + 4 * 1) = w ^ 2 * w ^ 2 + 4 * 1 := Real.mul_self_sqrt (by nlinarith [sq_nonneg (w ^ 2)])
    linear_combination (1/4) * this
  · unfold Pusher.invGammaNew
    have : 2 ≤ Real.sqrt (w ^ 2 * w ^ 2 + 4 * 1) := Real.le_sqrt_of_sq_le (by nlinarith [sq_nonneg (w ^ 2)])
    exact if_neg (by
      push Not
      exact ⟨by nlinarith [sq_nonneg (w ^ 2)], by have := sq_nonneg w; generalize Real.sqrt (w ^ 2 * w ^ 2 + 4 * 1) = y at *; linarith⟩)

/-- Different `w` give different factors. -/
theorem invGamma_inj {w w' q q' : ℝ} (h : q * q - w ^ 2 * q - 1 = 0) (h' : q' * q' - w' ^ 2 * q' - 1 = 0) (hq : 1 ≤ q) (hw : 0 < w) (hw' : 0 < w')
    (e : q' = q) : w' = w := by
  subst e
  have : q' * (w ^ 2 - w' ^ 2) = 0 := by linear_combination h' - h
  rcases mul_eq_zero.mp this with h | h
  · linarith
  · nlinarith

theorem pos_inv (c w : ℝ) (h : 0 ≤ w) : 0 < Rel.lorenzFactorInv c w := by
  unfold Rel.lorenzFactorInv
  exact Real.rpow_pos_of_pos (by have := div_nonneg h (mul_self_nonneg c); linarith) _

theorem factor_zero (c : ℝ) : Rel.lorenzFactor c (Vec3.length2 ⟨0, 0, 0⟩) = .ok 1 := by
  unfold Rel.lorenzFactor Vec3.length2
  norm_num

/-- A particle at rest in crossed fields. -/
theorem vay_at {P : Pusher.Par} {e b : Vec3 ℝ} {w : ℝ} (hw : 0 < w) (he : e.smul (2 * P.k) = ⟨w, 0, 0⟩) (hb : b.smul (P.k * P.mu) = ⟨0, 0, 1⟩) :
    ∃ q a, 1 ≤ q ∧ q * q - w ^ 2 * q - 1 = 0 ∧ Pusher.vay P e b ⟨0, 0, 0⟩ = .ok a ∧ 0 < a.x ∧ a.y = -(1 / Real.sqrt q) * a.x := by
  obtain ⟨q, h1, h2, h3⟩ := invGamma_one w
  have sq : 0 < Real.sqrt q := Real.sqrt_pos.mpr (by linarith)
  have e1 : ∀ t : ℝ, (Vec3.smul ⟨0, 0, 0⟩ t : Vec3 ℝ) = ⟨0, 0, 0⟩ := by
    intro t
    unfold Vec3.smul
    simp
  let A : ℝ := 1 / Real.sqrt q
  let p : Vec3 ℝ := ⟨1 / (1 + A * A) * w, 1 / (1 + A * A) * (-A * w), 0⟩
  refine ⟨q, p.smul (Rel.lorenzFactorInv P.c p.length2), h1, h2, ?_, ?_, ?_⟩
  · unfold Pusher.vay
    rw [factor_zero, Res.ok_bind]
    dsimp only
    rw [he, hb, e1]
    have e2 : (Pusher.invGammaNew
        (1 + Vec3.length2 ⟨(Vec3.add ⟨0, 0, 0⟩ ⟨w, 0, 0⟩ : Vec3 ℝ).x + Rel.lorenzFactorInv P.c (Vec3.length2 ⟨0, 0, 0⟩) * (0 * 1 - 0 * 0), (Vec3.add ⟨0, 0, 0⟩ ⟨w, 0, 0⟩ : Vec3 ℝ).y + Rel.lorenzFactorInv P.c (Vec3.length2 ⟨0, 0, 0⟩) * (0 * 0 - 0 * 1), (Vec3.add ⟨0, 0, 0⟩ ⟨w, 0, 0⟩ : Vec3 ℝ).z + Rel.lorenzFactorInv P.c (Vec3.length2 ⟨0, 0, 0⟩) * (0 * 0 - 0 * 0)⟩ - Vec3.length2 ⟨0, 0, 1⟩)
        (Vec3.length2 (⟨0, 0, 1⟩ : Vec3 ℝ) + Vec3.dot ⟨(Vec3.add ⟨0, 0, 0⟩ ⟨w, 0, 0⟩ : Vec3 ℝ).x + Rel.lorenzFactorInv P.c (Vec3.length2 ⟨0, 0, 0⟩) * (0 * 1 - 0 * 0), (Vec3.add ⟨0, 0, 0⟩ ⟨w, 0, 0⟩ : Vec3 ℝ).y + Rel.lorenzFactorInv P.c (Vec3.length2 ⟨0, 0, 0⟩) * (0 * 0 - 0 * 1), (Vec3.add ⟨0, 0, 0⟩ ⟨w, 0, 0⟩ : Vec3 ℝ).z + Rel.lorenzFactorInv P.c (Vec3.length2 ⟨0, 0, 0⟩) * (0 * 0 - 0 * 0)⟩ ⟨0, 0, 1⟩ ^ 2)) = .ok A := by
      rw [← h3]
      congr 1
      · simp [Vec3.length2, Vec3.add, Vec3.zip]; ring
      · simp [Vec3.length2, Vec3.add, Vec3.zip, Vec3.dot]
    rw [e2, Res.ok_bind]
    have e3 : ∀ x y : Vec3 ℝ, x = y → (Res.ok (x.smul (Rel.lorenzFactorInv P.c x.length2)) : Res (Vec3 ℝ)) = .ok (y.smul (Rel.lorenzFactorInv P.c y.length2)) := by
      intro x y h
      rw [h]
    refine e3 _ _ ?_
    simp [Vec3.length2, Vec3.add, Vec3.zip, Vec3.dot, Vec3.smul, p]
  · have := pos_inv P.c p.length2 (Rel.len2_nonneg p)
    have n : 0 < 1 + A * A := by nlinarith [mul_self_nonneg A]
    show 0 < 1 / (1 + A * A) * w * _
    positivity
  · show 1 / (1 + A * A) * (-A * w) * _ = -A * (1 / (1 + A * A) * w * _)
    ring

/-- The same for the pusher of Higuera and Cary. -/
theorem hc_at {P : Pusher.Par} {e b : Vec3 ℝ} {w : ℝ} (hw : 0 < w) (he : e.smul P.k = ⟨w, 0, 0⟩) (hb : b.smul (P.k * P.mu) = ⟨0, 0, 1⟩) :
    ∃ q a, 1 ≤ q ∧ q * q - w ^ 2 * q - 1 = 0 ∧ Pusher.hc P e b ⟨0, 0, 0⟩ = .ok a ∧ 0 < a.x ∧ a.y * (2 - (1 / Real.sqrt q) ^ 2) = -(2 * (1 / Real.sqrt q)) * a.x := by
  obtain ⟨q, h1, h2, h3⟩ := invGamma_one w
  have sq : 1 ≤ Real.sqrt q := Real.one_le_sqrt.mpr h1
  have e1 : ∀ t : ℝ, (Vec3.smul ⟨0, 0, 0⟩ t : Vec3 ℝ) = ⟨0, 0, 0⟩ := by
    intro t
    unfold Vec3.smul
    simp
  let A : ℝ := 1 / Real.sqrt q
  have hA : A ≤ 1 := (div_le_one (by linarith)).mpr sq
  have hA0 : 0 < A := by positivity
  let p : Vec3 ℝ := ⟨(2 - A ^ 2) * w, -(2 * A) * w, 0⟩
  refine ⟨q, p.smul (Rel.lorenzFactorInv P.c p.length2), h1, h2, ?_, ?_, ?_⟩
  · unfold Pusher.hc
    rw [factor_zero, Res.ok_bind]
    dsimp only
    rw [he, hb, e1]
    have e2 : ∀ s t : ℝ, s = w ^ 2 → t = 1 → Pusher.invGammaNew s t = .ok A := by
      intro s t h h'
      rw [h, h', h3]
    rw [e2 _ _ (by simp [Vec3.length2, Vec3.add, Vec3.zip]; ring) (by simp [Vec3.length2, Vec3.add, Vec3.zip]), Res.ok_bind]
    have e3 : ∀ x y : Vec3 ℝ, x = y → (Res.ok (x.smul (Rel.lorenzFactorInv P.c x.length2)) : Res (Vec3 ℝ)) = .ok (y.smul (Rel.lorenzFactorInv P.c y.length2)) := by
      intro x y h
      rw [h]
    refine e3 _ _ ?_
    simp [Vec3.length2, Vec3.add, Vec3.zip, Vec3.dot, Vec3.smul, Vec3.mulV, Pusher.hcRotate, p]
    ring
  · have := pos_inv P.c p.length2 (Rel.len2_nonneg p)
    have n : 0 < 2 - A ^ 2 := by nlinarith
    show 0 < (2 - A ^ 2) * w * _
    positivity
  · show -(2 * A) * w * _ * (2 - A ^ 2) = -(2 * A) * ((2 - A ^ 2) * w * _)
    ring

/-- The constants of the counterexamples. -/
noncomputable def exPush : Pusher.Par := ⟨1, 1, 1/100, 2, 1, 1⟩

theorem exPush_k : exPush.k = 1 := by unfold Pusher.Par.k exPush; norm_num

theorem ex_fields (U : Units) (t : ℝ) : (Vec3.smul ⟨t, 0, 0⟩ U.ef : Vec3 ℝ).smul (U.ppar exPush).k = ⟨U.vel * t, 0, 0⟩ ∧
    (Vec3.smul ⟨0, 0, 1⟩ U.hf : Vec3 ℝ).smul ((U.ppar exPush).k * (U.ppar exPush).mu) = ⟨0, 0, 1⟩ := by
  have h1 := Units.k_units (U := U) exPush
  have h2 := Units.kmu_units (U := U) exPush
  rw [exPush_k] at h1 h2
  rw [show exPush.mu = 1 from rfl, mul_one] at h2
  unfold Vec3.smul
  constructor
  · congr 1
    · linear_combination t * h1
    · simp
    · simp
  · congr 1
    · simp
    · simp
    · linear_combination h2

/-- C129 fails for the pusher of Vay, which adds one to the square of a velocity: for every change of the unit of velocity there are fields
that turn a particle at rest into different directions in the old and in the new units. -/
theorem C129_vay_fails (U : Units) (hU : U.vel ≠ 1) : ∃ (P : Pusher.Par) (e b a a' : Vec3 ℝ), Pusher.vay P e b ⟨0, 0, 0⟩ = .ok a ∧
    Pusher.vay (U.ppar P) (e.smul U.ef) (b.smul U.hf) ⟨0, 0, 0⟩ = .ok a' ∧ a' ≠ a.smul U.vel := by
  have V := U.vel_pos
  obtain ⟨f1, f2⟩ := ex_fields U (1/2)
  obtain ⟨q, a, h1, h2, h3, h4, h5⟩ := vay_at (P := exPush) (e := ⟨1/2, 0, 0⟩) (b := ⟨0, 0, 1⟩) (w := 1) one_pos
    (by rw [exPush_k]; norm_num [Vec3.smul]) (by rw [exPush_k]; norm_num [Vec3.smul, exPush])
  obtain ⟨q', a', h1', h2', h3', h4', h5'⟩ := vay_at (P := U.ppar exPush) (e := (Vec3.smul ⟨1/2, 0, 0⟩ U.ef : Vec3 ℝ)) (b := (Vec3.smul ⟨0, 0, 1⟩ U.hf : Vec3 ℝ)) (w := U.vel) V (by
      have : ∀ (v : Vec3 ℝ) (t : ℝ), v.smul (2 * t) = (v.smul t).smul 2 := by
        intro v t
        unfold Vec3.smul
        dsimp only
        congr 1 <;> ring
      rw [this, f1]
      unfold Vec3.smul
      dsimp only
      congr 1 <;> ring) f2
  refine ⟨exPush, _, _, a, a', h3, h3', fun h => ?_⟩
  rw [h] at h5' h4'
  have e : U.vel * a.x * (1 / Real.sqrt q') = U.vel * a.x * (1 / Real.sqrt q) := by
    have : a.y * U.vel = -(1 / Real.sqrt q') * (a.x * U.vel) := h5'
    rw [h5] at this
    linear_combination this
  have e := mul_left_cancel₀ (mul_pos V h4).ne' e
  rw [one_div, one_div, inv_inj, Real.sqrt_inj (by linarith) (by linarith)] at e
  exact hU (invGamma_inj h2 h2' h1 one_pos V e)

/-- C129 fails for the pusher of Higuera and Cary in the same way. -/
theorem C129_hc_fails (U : Units) (hU : U.vel ≠ 1) : ∃ (P : Pusher.Par) (e b a a' : Vec3 ℝ), Pusher.hc P e b ⟨0, 0, 0⟩ = .ok a ∧
    Pusher.hc (U.ppar P) (e.smul U.ef) (b.smul U.hf) ⟨0, 0, 0⟩ = .ok a' ∧ a' ≠ a.smul U.vel := by
  have V := U.vel_pos
  obtain ⟨f1, f2⟩ := ex_fields U 1
  obtain ⟨q, a, h1, h2, h3, h4, h5⟩ := hc_at (P := exPush) (e := ⟨1, 0, 0⟩) (b := ⟨0, 0, 1⟩) (w := 1) one_pos
    (by rw [exPush_k]; norm_num [Vec3.smul]) (by rw [exPush_k]; norm_num [Vec3.smul, exPush])
  obtain ⟨q', a', h1', h2', h3', h4', h5'⟩ := hc_at (P := U.ppar exPush) (e := (Vec3.smul ⟨1, 0, 0⟩ U.ef : Vec3 ℝ)) (b := (Vec3.smul ⟨0, 0, 1⟩ U.hf : Vec3 ℝ)) (w := U.vel) V (by
      rw [f1, mul_one]) f2
  refine ⟨exPush, _, _, a, a', h3, h3', fun h => ?_⟩
  rw [h] at h5' h4'
  have h5' : a.y * U.vel * (2 - (1 / Real.sqrt q') ^ 2) = -(2 * (1 / Real.sqrt q')) * (a.x * U.vel) := h5'
  have p1 : 0 < 1 / Real.sqrt q := by have := Real.sqrt_pos.mpr (show 0 < q by linarith); positivity
  have p2 : 0 < 1 / Real.sqrt q' := by have := Real.sqrt_pos.mpr (show 0 < q' by linarith); positivity
  have e : 1 / Real.sqrt q' = 1 / Real.sqrt q := by
    generalize 1 / Real.sqrt q = x at *
    generalize 1 / Real.sqrt q' = x' at *
    have : a.x * U.vel * ((x' - x) * (2 + x * x')) = 0 := by
      linear_combination (1/2) * (2 - x ^ 2) * h5' - (1/2) * U.vel * (2 - x' ^ 2) * h5
    have n := mul_pos h4 V
    rcases mul_eq_zero.mp this with k | k
    · exact absurd k n.ne'
    · rcases mul_eq_zero.mp k with k | k
      · linarith
      · nlinarith [mul_pos p1 p2]
  rw [one_div, one_div, inv_inj, Real.sqrt_inj (by linarith) (by linarith)] at e
  exact hU (invGamma_inj h2 h2' h1 one_pos V e)

/-! ### Non-vacuity -/

/-- The hypotheses of `C129_step_partial`: a charged particle crosses the borders between four cells that belong to four domains, and
the same step is taken in any other units. -/
example (U : Units) : BorisKind (exVB 2 2 1).kind ∧ (exVB 2 2 1).dist = VB.currentDistribution ∧ ∃ T, Step (exVB 2 2 1) (exState 0 exTurn) T ∧
    Straight (exVB 2 2 1) T ∧ Step (U.env (exVB 2 2 1)) (U.state (exState 0 exTurn)) (U.state T) := by
  obtain ⟨T, s1, AS, pm⟩ := C97_step_partial exVB_chamber (Or.inl rfl) (Or.inl rfl) (by simp) exVB_alive exVB_no_border
  have st := (s1 T).mpr rfl
  have e := exVB_heap st
  obtain ⟨l1, l2⟩ := exTurn_lands
  have hT : Straight (exVB 2 2 1) T := by
    intro i j hi hj sp hsp o ho k
    have hid : sp.id = 7 := by
      have : sp.id ∈ [7] := by rw [← AS.species i j]; exact List.mem_map_of_mem hsp
      exact List.mem_singleton.mp this
    have ht : o.tag = 0 := by
      have m := (pm 7 (by simp)).mem_iff.mp (mem_tags.mpr ⟨i, j, hi, hj, sp, hsp, hid, o, ho, rfl⟩)
      exact List.mem_singleton.mp m
    rw [ht, e, l2] at k
    have k : |(21/10 : ℝ) - 19/10| < 1/1000 := k
    norm_num [abs_lt] at k
  exact ⟨.inr (.inl rfl), rfl, T, st, hT, (C129_step_partial U (.inr (.inl rfl)) rfl _ _ hT).mpr st⟩

end Pic
end Pico
