import Verif.Spec.PicEnergy
import Verif.Props.Energy
import Verif.Props.PicLaws
import Verif.Props.PicFull

/-! # C118: energy in whole runs -/

set_option linter.unusedSimpArgs false
set_option linter.unusedVariables false
set_option linter.unusedSectionVars false

namespace Pico
namespace Pic

open SMB Yee

/-! ### The fields -/

theorem boxSum_congr {p : Par ℝ} {f g : Int → Int → ℝ} (h : ∀ X Y, p.logical X Y → f X Y = g X Y) : boxSum p f = boxSum p g := by
  unfold boxSum
  refine Finset.sum_congr rfl fun i hi => Finset.sum_congr rfl fun k hk => h _ _ ?_
  have := Finset.mem_range.1 hi
  have := Finset.mem_range.1 hk
  unfold Par.logical
  omega

/-- The sources of a state, inside the chamber. -/
noncomputable def sourcesOf (E : Env) (M : Solvers ℝ) : Comp → Int → Int → ℝ := fun c X Y =>
  open Classical in if E.p.logical X Y then glue E M c X Y else 0

theorem sources_glue {E : Env} {M : Solvers ℝ} {c : Comp} {X Y : Int} (h : E.p.logical X Y) : sourcesOf E M c X Y = glue E M c X Y := by
  unfold sourcesOf
  rw [if_pos h]

/-- One step of the fields. -/
theorem energy_step {E : Env} (hd : Divided E.p E.domR E.domZ) (hz : Scheme E.dist) {S T : State} {m : Mem ℝ}
    (W : ∀ c, c.isSource = false → Windows E.p E.domR E.domZ c S.M m) (st : Step E S T) :
    ∃ m1, (calcE E.p (setSources (sourcesOf E S.M) m) >>= calcH E.p) = .ok m1 ∧
      (∀ c, c.isSource = false → Windows E.p E.domR E.domZ c T.M m1) ∧
      ∀ X Y, E.p.logical X Y → glue E T.M .eps X Y = glue E S.M .eps X Y ∧ glue E T.M .sig X Y = glue E S.M .sig X Y := by
  obtain ⟨N1, f1, _, _, _, f5⟩ := st
  have e : (fun i j => setSources (S.M i j) (S.M i j)) = S.M := by
    funext i j c x y
    exact ite_self _
  obtain ⟨M1, m1, e1, e2, W1, k⟩ := C62_step E.p hd W (loc := fun i j => S.M i j) (src := sourcesOf E S.M) (by
    intro i j x y c _ hc
    rw [sources_glue, cell_glue hd hc]
    obtain ⟨hi, hj, hl⟩ := hc
    have b := hd.bounds hi hj
    unfold Par.logical
    omega)
  rw [e] at e1
  obtain rfl := Res.ok.inj (e1.symm.trans f1)
  refine ⟨m1, e2, fun c hc i j x y ho => ?_, fun X Y hl => ?_⟩
  · rw [solve_keeps hz _ _ _ _ _ f5 (c := c) (by unfold isJ; rintro (rfl | rfl | rfl) <;> exact (nomatch hc)) i j x y]
    exact W1 c hc i j x y ho
  · obtain ⟨i, j, x, y, hc, _, _, g⟩ := glue_cell hd hl
    rw [g, g, g, g, solve_keeps hz _ _ _ _ _ f5 (c := .eps) (by unfold isJ; decide) i j x y,
      solve_keeps hz _ _ _ _ _ f5 (c := .sig) (by unfold isJ; decide) i j x y, k _ _ _ _ _ hc.1 hc.2.1 rfl, k _ _ _ _ _ hc.1 hc.2.1 rfl]
    exact ⟨rfl, rfl⟩

/-- The fields of a run are those of an undivided chamber with the same currents. -/
theorem run_whole {E : Env} (hd : Divided E.p E.domR E.domZ) (hz : Scheme E.dist) {S : Nat → State} (Z : NoFields E (S 0)) {n : Nat}
    (st : ∀ t, t < n → Step E (S t) (S (t + 1))) :
    ∀ t, t ≤ n → (∃ m, wholeRun E.p (fun t => sourcesOf E (S t).M) t = .ok m ∧ ∀ c, c.isSource = false → Windows E.p E.domR E.domZ c (S t).M m) ∧
      ∀ X Y, E.p.logical X Y → glue E (S t).M .eps X Y = glue E (S 0).M .eps X Y ∧ glue E (S t).M .sig X Y = glue E (S 0).M .sig X Y := by
  intro t
  induction t with
  | zero =>
    refine fun _ => ⟨⟨_, rfl, fun c hc i j x y ho => ?_⟩, fun _ _ _ => ⟨rfl, rfl⟩⟩
    rw [Z i j c x y ho hc]
    exact ⟨fun _ => rfl, fun _ => rfl⟩
  | succ t ih =>
    intro ht
    obtain ⟨⟨m, e, W⟩, k⟩ := ih (by omega)
    obtain ⟨m1, e1, W1, k1⟩ := energy_step hd hz W (st t (by omega))
    refine ⟨⟨m1, by rw [wholeRun, e, Res.ok_bind]; exact e1, W1⟩, fun X Y hl => ?_⟩
    rw [(k1 X Y hl).1, (k1 X Y hl).2]
    exact k X Y hl

/-- **C118**, fields: in every run in a closed chamber that starts without fields, with any particles, any pusher, either deposition scheme and any
admissible division into domains: after any number of steps the energy of the fields is minus the work the fields have done on the currents and
in conducting media in all steps, exactly. -/
theorem C118_fields {E : Env} (hd : Divided E.p E.domR E.domZ) (hp : E.p.Good) (hc : Closed E.p) (hz : Scheme E.dist) {S : Nat → State}
    (Z : NoFields E (S 0)) (md : Media E (S 0)) {n : Nat} (st : ∀ t, t ≤ n → Step E (S t) (S (t + 1))) :
    fieldsEnergy E (S n) (S (n + 1)) = -∑ t ∈ Finset.range (n + 1), E.p.dt * powerOf E (S t) (S (t + 1)) := by
  have R := run_whole hd hz Z (n := n + 1) (fun t ht => st t (by omega))
  -- the sources of the run up to step `n`, and those of step `n` afterwards
  set src : Nat → Comp → Int → Int → ℝ := fun t => sourcesOf E (S (min t n)).M with hsrc
  have same : ∀ t, t ≤ n + 1 → wholeRun E.p src t = wholeRun E.p (fun t => sourcesOf E (S t).M) t := by
    intro t
    induction t with
    | zero => exact fun _ => rfl
    | succ t ih =>
      intro ht
      rw [wholeRun, wholeRun, ih (by omega), hsrc]
      dsimp only
      rw [Nat.min_eq_left (by omega : t ≤ n)]
  have he : ∀ t, src t .eps = src 0 .eps := by
    intro t
    funext X Y
    show sourcesOf E (S (min t n)).M .eps X Y = sourcesOf E (S (min 0 n)).M .eps X Y
    unfold sourcesOf
    split_ifs with hl
    · rw [((R _ (by omega)).2 X Y hl).1, ((R (min 0 n) (by omega)).2 X Y hl).1]
    · rfl
  have nz : ∀ t X Y, E.p.logical X Y → 2 * src 0 .eps X Y + src t .sig X Y * E.p.dt ≠ 0 := by
    intro t X Y hl
    show 2 * sourcesOf E (S (min 0 n)).M .eps X Y + sourcesOf E (S (min t n)).M .sig X Y * E.p.dt ≠ 0
    rw [sources_glue hl, sources_glue hl, ((R _ (by omega)).2 X Y hl).1, ((R (min t n) (by omega)).2 X Y hl).2]
    exact md X Y hl
  obtain ⟨N, hN, bal⟩ := C76_balance E.p hp hc (src 0 .eps) src he nz
  obtain ⟨N', hN', _, _, kp, _⟩ := run_closed hp hc (src 0 .eps) src he nz
  obtain rfl : N' = N := funext fun t => Res.ok.inj ((hN' t).symm.trans (hN t))
  -- the fields
  have F : ∀ t, t ≤ n + 1 → ∀ c, c.isSource = false → ∀ X Y, E.p.logical X Y → N' t c X Y = glue E (S t).M c X Y := by
    intro t ht c hs X Y hl
    obtain ⟨⟨m, e, W⟩, _⟩ := R t ht
    obtain rfl : m = N' t := Res.ok.inj (e.symm.trans ((same t ht).symm.trans (hN t)))
    exact (window_glue hd (W c hs) hl).symm
  -- the sources
  have G : ∀ t, t ≤ n → ∀ X Y, E.p.logical X Y → N' (t + 1) .sig X Y = glue E (S t).M .sig X Y ∧ N' (t + 1) .jr X Y = glue E (S t).M .jr X Y ∧
      N' (t + 1) .jp X Y = glue E (S t).M .jp X Y ∧ N' (t + 1) .jz X Y = glue E (S t).M .jz X Y := by
    intro t ht X Y hl
    have q : src t = sourcesOf E (S t).M := by rw [hsrc]; dsimp only; rw [Nat.min_eq_left ht]
    obtain ⟨k1, k2, k3, k4⟩ := kp t
    rw [k1, k2, k3, k4, q]
    exact ⟨sources_glue hl, sources_glue hl, sources_glue hl, sources_glue hl⟩
  have B := bal n
  have l : fieldEnergy E.p (src 0 .eps) (N' n) (N' (n + 1)) = fieldsEnergy E (S n) (S (n + 1)) := by
    unfold fieldsEnergy fieldEnergy electricEnergy magneticEnergy
    congr 1
    · refine boxSum_congr fun X Y hl => ?_
      rw [F _ le_rfl .er rfl X Y hl, F _ le_rfl .ep rfl X Y hl, F _ le_rfl .ez rfl X Y hl]
      show sourcesOf E (S (min 0 n)).M .eps X Y / 2 * _ = _
      rw [sources_glue hl, ((R (min 0 n) (by omega)).2 X Y hl).1, ((R n (by omega)).2 X Y hl).1]
    · refine boxSum_congr fun X Y hl => ?_
      rw [F _ le_rfl .hr rfl X Y hl, F _ le_rfl .hp rfl X Y hl, F _ le_rfl .hz rfl X Y hl, F _ (by omega) .hr rfl X Y hl, F _ (by omega) .hp rfl X Y hl,
        F _ (by omega) .hz rfl X Y hl]
  rw [← l, B]
  congr 1
  refine Finset.sum_congr rfl fun t ht => ?_
  have ht : t ≤ n := by have := Finset.mem_range.1 ht; omega
  congr 1
  unfold powerOf power
  refine boxSum_congr fun X Y hl => ?_
  dsimp only
  obtain ⟨g1, g2, g3, g4⟩ := G t ht X Y hl
  rw [g1, g2, g3, g4, F t (by omega) .er rfl X Y hl, F t (by omega) .ep rfl X Y hl,
    F t (by omega) .ez rfl X Y hl, F (t + 1) (by omega) .er rfl X Y hl, F (t + 1) (by omega) .ep rfl X Y hl, F (t + 1) (by omega) .ez rfl X Y hl]
  rfl

/-! ### The particles -/

theorem gamma_spec {c : ℝ} (hc : 0 < c) {v : Vec3 ℝ} (h : v.length2 < c ^ 2) :
    Rel.lorenzFactor c v.length2 = .ok (gammaOf c v) ∧ 0 < gammaOf c v ∧ gammaOf c v ^ 2 * (c ^ 2 - v.length2) = c ^ 2 := by
  obtain ⟨γ, e, g, k⟩ := Rel.lorenz_lt hc h
  obtain rfl : gammaOf c v = γ := by
    unfold Rel.lorenzFactor at e
    dsimp only at e
    have p : 0 < 1 - v.length2 / (c * c) := by
      have : v.length2 / (c * c) < 1 := by rw [div_lt_one (by positivity)]; linarith [pow_two c]
      linarith
    rw [if_neg (by linarith), if_neg (Real.sqrt_pos.mpr p).ne'] at e
    unfold gammaOf
    rw [pow_two]
    exact Res.ok.inj e
  exact ⟨e, g, k⟩

theorem gamma_congr (c : ℝ) {v w : Vec3 ℝ} (h : v.length2 = w.length2) : gammaOf c v = gammaOf c w := by
  unfold gammaOf
  rw [h]

/-- The work of a push. -/
theorem push_work {P : Pusher.Par} (junk : Bool) (hc : 0 < P.c) (hm : P.mass ≠ 0) (e h v : Vec3 ℝ) (hv : v.length2 < P.c ^ 2) :
    ∃ w, Pusher.pushV .borisRelativistic P junk e h v = .ok w ∧ w.length2 < P.c ^ 2 ∧
      (gammaOf P.c w - gammaOf P.c v) * P.mass * P.c ^ 2 =
        P.charge * P.dt * e.dot (((v.smul (gammaOf P.c v)).add (w.smul (gammaOf P.c w))).smul (1 / (gammaOf P.c v + gammaOf P.c w))) := by
  obtain ⟨w, γ, γ', e1, e2, e3, γm, _, _, k⟩ := Pusher.C71_lorentz_relativistic P junk hc hm e h v hv
  obtain ⟨w', f1, f2⟩ := Pusher.C72_step .borisRelativistic (Or.inl rfl) P junk hc e h v hv
  obtain rfl : w' = w := Res.ok.inj (f1.symm.trans e1)
  obtain ⟨g1, g2, g3⟩ := gamma_spec hc hv
  obtain ⟨h1, h2, h3⟩ := gamma_spec hc f2
  obtain rfl := Res.ok.inj (g1.symm.trans e2)
  obtain rfl := Res.ok.inj (h1.symm.trans e3)
  refine ⟨w', e1, f2, ?_⟩
  set a := gammaOf P.c v
  set b := gammaOf P.c w'
  set q := P.charge * P.dt / P.mass with hq
  have kx := congrArg Vec3.x k
  have ky := congrArg Vec3.y k
  have kz := congrArg Vec3.z k
  generalize 1 / (2 * γm) = s at *
  simp only [Vec3.add, Vec3.sub, Vec3.zip, Vec3.cross, Vec3.smul] at kx ky kz
  have main : (b - a) * (b + a) * P.c ^ 2 = q * e.dot ((v.smul a).add (w'.smul b)) := by
    have l1 : v.length2 = v.x * v.x + v.y * v.y + v.z * v.z := by unfold Vec3.length2; ring
    have l2 : w'.length2 = w'.x * w'.x + w'.y * w'.y + w'.z * w'.z := by unfold Vec3.length2; ring
    rw [l1] at g3
    rw [l2] at h3
    simp only [Vec3.add, Vec3.zip, Vec3.smul, Vec3.dot]
    linear_combination h3 - g3 + (v.x * a + w'.x * b) * kx + (v.y * a + w'.y * b) * ky + (v.z * a + w'.z * b) * kz
  have ab : a + b ≠ 0 := by positivity
  have d : ∀ u : Vec3 ℝ, e.dot (u.smul (1 / (a + b))) = e.dot u / (a + b) := by
    intro u
    simp only [Vec3.dot, Vec3.smul]
    ring
  rw [d]
  have qm : P.charge * P.dt = q * P.mass := by rw [hq]; field_simp
  rw [qm]
  rw [eq_comm, mul_div_assoc', div_eq_iff ab]
  linear_combination -P.mass * main

/-- One particle in one step. -/
theorem work_step {E : Env} (h : 0 < E.c) (hm : ∀ id, 0 < E.mass id) (hk : E.kind = .borisRelativistic) {S T : State} (st : Step E S T) {id o i j : Nat}
    (l : ListedIn E S id o i j) (sl : (vel (S.heap o)).length2 < E.c ^ 2) :
    ∃ M1 e w, solveMaxwell (domPar E.p E.domR E.domZ) E.domR E.domZ S.M = .ok M1 ∧
      Interp.getE E.e.pi (E.geom i j) (M1 i j) (S.heap o).posR (S.heap o).posZ = .ok e ∧
      w.length2 = (vel (T.heap o)).length2 ∧ (vel (T.heap o)).length2 < E.c ^ 2 ∧
      kineticOf E id (vel (T.heap o)) = kineticOf E id (vel (S.heap o)) + workOf E id e (vel (S.heap o)) w := by
  obtain ⟨M1, e1, mv, _⟩ := st
  obtain ⟨hi, hj, sp, hs, rfl, q, hq, rfl⟩ := l
  obtain ⟨junk, v, e2, e3⟩ := mv i j hi hj sp hs q hq
  unfold Pusher.push at e2
  obtain ⟨e, e4, e2⟩ := Res.bind_ok e2
  obtain ⟨b, e5, e2⟩ := Res.bind_ok e2
  rw [hk] at e2
  obtain ⟨w, f1, f2, f3⟩ := push_work (P := E.pushPar sp.id) junk h (hm sp.id).ne' e b (vel (S.heap q.tag)) sl
  obtain rfl := Res.ok.inj (f1.symm.trans e2)
  have sp2 : (vel (T.heap q.tag)).length2 = w.length2 := advance_speed e3
  refine ⟨M1, e, w, e1, e4, sp2.symm, by rw [sp2]; exact f2, ?_⟩
  unfold kineticOf
  rw [gamma_congr E.c sp2]
  have f3 : (gammaOf E.c w - gammaOf E.c (vel (S.heap q.tag))) * E.mass sp.id * E.c ^ 2 = workOf E sp.id e (vel (S.heap q.tag)) w := f3
  rw [← f3]
  ring

/-- **C118**, particles: with the relativistic Boris pusher, in every run, the kinetic energy of every particle after any number of steps is the one it
had at the beginning and the work of the electric field that it has seen on its way, exactly.  (The magnetic field, the walls and the changes of
domain contribute nothing.) -/
theorem C118_kinetic_partial {E : Env} (h : 0 < E.c) (hm : ∀ id, 0 < E.mass id) (hk : E.kind = .borisRelativistic) {S : Nat → State} {n : Nat}
    (st : ∀ t, t < n → Step E (S t) (S (t + 1))) {id o : Nat} {place : Nat → Nat × Nat}
    (l : ∀ t, t < n → ListedIn E (S t) id o (place t).1 (place t).2) (sl : (vel ((S 0).heap o)).length2 < E.c ^ 2) :
    ∃ (M : Nat → Solvers ℝ) (e w : Nat → Vec3 ℝ), (∀ t, t < n →
        solveMaxwell (domPar E.p E.domR E.domZ) E.domR E.domZ (S t).M = .ok (M t) ∧
        Interp.getE E.e.pi (E.geom (place t).1 (place t).2) (M t (place t).1 (place t).2) ((S t).heap o).posR ((S t).heap o).posZ = .ok (e t) ∧
        (w t).length2 = (vel ((S (t + 1)).heap o)).length2) ∧
      kineticOf E id (vel ((S n).heap o)) = kineticOf E id (vel ((S 0).heap o)) +
        ∑ t ∈ Finset.range n, workOf E id (e t) (vel ((S t).heap o)) (w t) := by
  have slow : ∀ t, t ≤ n → (vel ((S t).heap o)).length2 < E.c ^ 2 := by
    intro t
    induction t with
    | zero => exact fun _ => sl
    | succ t ih =>
      intro ht
      obtain ⟨_, _, _, _, _, _, r, _⟩ := work_step h hm hk (st t (by omega)) (l t (by omega)) (ih (by omega))
      exact r
  have X : ∀ t, ∃ (M1 : Solvers ℝ) (e w : Vec3 ℝ), t < n → solveMaxwell (domPar E.p E.domR E.domZ) E.domR E.domZ (S t).M = .ok M1 ∧
      Interp.getE E.e.pi (E.geom (place t).1 (place t).2) (M1 (place t).1 (place t).2) ((S t).heap o).posR ((S t).heap o).posZ = .ok e ∧
      w.length2 = (vel ((S (t + 1)).heap o)).length2 ∧
      kineticOf E id (vel ((S (t + 1)).heap o)) = kineticOf E id (vel ((S t).heap o)) + workOf E id e (vel ((S t).heap o)) w := by
    intro t
    by_cases ht : t < n
    · obtain ⟨M1, e, w, a1, a2, a3, _, a5⟩ := work_step h hm hk (st t ht) (l t ht) (slow t ht.le)
      exact ⟨M1, e, w, fun _ => ⟨a1, a2, a3, a5⟩⟩
    · exact ⟨fun _ _ _ _ _ => 0, Vec3.zero, Vec3.zero, fun k => absurd k ht⟩
  choose M e w hX using X
  refine ⟨M, e, w, fun t ht => ⟨(hX t ht).1, (hX t ht).2.1, (hX t ht).2.2.1⟩, ?_⟩
  have : ∀ t, t ≤ n → kineticOf E id (vel ((S t).heap o)) = kineticOf E id (vel ((S 0).heap o)) +
        ∑ t ∈ Finset.range t, workOf E id (e t) (vel ((S t).heap o)) (w t) := by
    intro t
    induction t with
    | zero => intro _; simp
    | succ t ih =>
      intro ht
      rw [Finset.sum_range_succ, (hX t (by omega)).2.2.2, ih (by omega)]
      ring
  exact this n le_rfl

/-- A push of an uncharged particle leaves its velocity. -/
theorem push_neutral (kind : Pusher.Kind) {P : Pusher.Par} (junk : Bool) (hc : 0 < P.c) (hq : P.charge = 0) (e h v : Vec3 ℝ) (hv : v.length2 < P.c ^ 2) :
    Pusher.pushV kind P junk e h v = .ok v := by
  have k : P.k = 0 := by unfold Pusher.Par.k; rw [hq]; simp
  have s0 : ∀ u : Vec3 ℝ, u.smul 0 = Vec3.zero := fun u => by simp [Vec3.smul, Vec3.zero]
  have cl : Pusher.borisClassic P e h v = v := by
    unfold Pusher.borisClassic
    dsimp only
    rw [k, zero_mul, s0, s0, Pusher.add_zero', Pusher.rotate_zero, Pusher.add_zero']
  have back : ∀ γ, 0 < γ → γ ^ 2 * (P.c ^ 2 - v.length2) = P.c ^ 2 → (v.smul γ).smul (Rel.lorenzFactorInv P.c (v.smul γ).length2) = v := by
    intro γ hg hγ
    rw [Rel.len2_smul, Rel.smul_smul', mul_comm γ, Rel.inv_of_lorenz hc (Rel.len2_nonneg _) hg hγ, Rel.smul_one']
  have re : Pusher.borisRel P e h v = .ok v := by
    obtain ⟨γ, _, hg, hγ, R⟩ := Pusher.boris_eq P hc e h v hv
    dsimp only at R
    rw [k, zero_mul, s0, s0, Pusher.add_zero', Pusher.smul_zero', Pusher.rotate_zero, Pusher.add_zero', back γ hg hγ] at R
    exact R
  cases kind with
  | boris => show Res.ok _ = _; rw [cl]
  | borisRelativistic => exact re
  | borisAdaptive =>
    show Pusher.borisAdaptive P junk e h v = _
    unfold Pusher.borisAdaptive
    dsimp only
    rw [re, cl]
    split_ifs <;> rfl
  | vay =>
    obtain ⟨γ, a, _, hg, hγ, _, _, R⟩ := Pusher.vay_eq P hc e h v hv
    have z : ∀ u : Vec3 ℝ, Pusher.vayHalf Vec3.zero u = u := by
      intro u
      unfold Pusher.vayHalf Vec3.zero
      simp [Vec3.length2, Vec3.dot]
    have f : ∀ g u, Pusher.vayFirst g Vec3.zero Vec3.zero u = u := by
      intro g u
      unfold Pusher.vayFirst Vec3.zero
      simp [Vec3.add, Vec3.zip]
    rw [k, zero_mul, mul_zero, s0, s0, Pusher.smul_zero', f, z, back γ hg hγ] at R
    exact R
  | hc =>
    obtain ⟨γ, a, _, hg, hγ, _, R⟩ := Pusher.hc_eq P hc e h v hv
    dsimp only at R
    rw [k, zero_mul, s0, s0, Pusher.add_zero', Pusher.smul_zero', Pusher.hcRotate_zero, Pusher.zero_add', back γ hg hγ] at R
    exact R

/-- **C118**, uncharged particles: with every pusher, they keep their kinetic energy for ever, whatever the fields. -/
theorem C118_neutral {E : Env} (h : 0 < E.c) {S : Nat → State} {n : Nat} (st : ∀ t, t < n → Step E (S t) (S (t + 1))) {id o : Nat}
    (q : E.charge id = 0) (l : ∀ t, t < n → ∃ i j, ListedIn E (S t) id o i j) (sl : (vel ((S 0).heap o)).length2 < E.c ^ 2) :
    kineticOf E id (vel ((S n).heap o)) = kineticOf E id (vel ((S 0).heap o)) := by
  have : ∀ t, t ≤ n → (vel ((S t).heap o)).length2 = (vel ((S 0).heap o)).length2 := by
    intro t
    induction t with
    | zero => exact fun _ => rfl
    | succ t ih =>
      intro ht
      have ih := ih (by omega)
      obtain ⟨M1, _, mv, _⟩ := st t (by omega)
      obtain ⟨i, j, hi, hj, sp, hs, rfl, x, hx, rfl⟩ := l t (by omega)
      obtain ⟨junk, v, e2, e3⟩ := mv i j hi hj sp hs x hx
      unfold Pusher.push at e2
      obtain ⟨e, _, e2⟩ := Res.bind_ok e2
      obtain ⟨b, _, e2⟩ := Res.bind_ok e2
      rw [push_neutral _ (P := E.pushPar sp.id) junk h q e b _ (by rw [ih]; exact sl)] at e2
      obtain rfl := Res.ok.inj e2
      exact (advance_speed e3).trans ih
  unfold kineticOf
  rw [gamma_congr E.c (this n le_rfl)]

/-! ### Both together -/

/-- The states of a run, one after the other. -/
theorem run_states {E : Env} (h : Chamber E) (hk : Pusher.Relativistic E.kind) (hz : Scheme E.dist) {ids : List Nat} (nd : ids.Nodup) {S : State}
    (A : Alive E ids S) (B : ∀ k T, Run E S k T → NoBorder E T) :
    ∃ U : Nat → State, U 0 = S ∧ (∀ t T, Run E S t T ↔ T = U t) ∧ (∀ t, Step E (U t) (U (t + 1))) ∧ (∀ t, Alive E ids (U t)) ∧
      ∀ t, ∀ id ∈ ids, (tagsOf E (U t).D id).Perm (tagsOf E S.D id) := by
  have X := fun n => C97_run_partial h hk hz nd A n (fun k T _ r => B k T r)
  choose U h1 h2 h3 using X
  refine ⟨U, ((h1 0 S).1 .start).symm, h1, fun t => ?_, h2, h3⟩
  have r := (h1 (t + 1) (U (t + 1))).2 rfl
  cases r with
  | step r s =>
    rw [(h1 t _).1 r] at s
    exact s

theorem chamber_closed {E : Env} (h : Chamber E) : Closed E.p := by
  have w := h.walls
  have d := h.div
  refine ⟨h.r0, ?_, ?_, by rw [w], by rw [w], by rw [w], by rw [w]⟩
  · have := d.r1; have := d.r2; omega
  · have := d.z1; have := d.z2; omega

/-- **C118.**  Runs of a closed chamber with the relativistic Boris pusher, as long as no particle arrives exactly at a border of its domain (undivided:
never, see `C97_single`): at all times the energy of the fields is minus their work on the currents, and the kinetic energy of every particle is its initial
energy and the work of the electric field on it. -/
theorem C118_run_partial {E : Env} (h : Chamber E) (hp : E.p.Good) (hk : E.kind = .borisRelativistic) (hz : Scheme E.dist) {ids : List Nat} (nd : ids.Nodup)
    {S : State} (A : Alive E ids S) (B : ∀ k T, Run E S k T → NoBorder E T) (Z : NoFields E S) (md : Media E S) :
    ∃ U : Nat → State, U 0 = S ∧ (∀ t T, Run E S t T ↔ T = U t) ∧
      (∀ n, fieldsEnergy E (U n) (U (n + 1)) = -∑ t ∈ Finset.range (n + 1), E.p.dt * powerOf E (U t) (U (t + 1))) ∧
      ∀ id ∈ ids, ∀ o ∈ tagsOf E S.D id, ∃ (place : Nat → Nat × Nat) (M : Nat → Solvers ℝ) (e w : Nat → Vec3 ℝ), ∀ n,
        ListedIn E (U n) id o (place n).1 (place n).2 ∧
        solveMaxwell (domPar E.p E.domR E.domZ) E.domR E.domZ (U n).M = .ok (M n) ∧
        Interp.getE E.e.pi (E.geom (place n).1 (place n).2) (M n (place n).1 (place n).2) ((U n).heap o).posR ((U n).heap o).posZ = .ok (e n) ∧
        (w n).length2 = (vel ((U (n + 1)).heap o)).length2 ∧
        kineticOf E id (vel ((U n).heap o)) = kineticOf E id (vel (S.heap o)) + ∑ t ∈ Finset.range n, workOf E id (e t) (vel ((U t).heap o)) (w t) := by
  obtain ⟨U, h0, h1, h2, h3, h4⟩ := run_states h (Or.inl hk) hz nd A B
  refine ⟨U, h0, h1, fun n => ?_, fun id hid o ho => ?_⟩
  · exact C118_fields h.div hp (chamber_closed h) hz (by rw [h0]; exact Z) (by rw [h0]; exact md) (fun t _ => h2 t)
  have L : ∀ t, ∃ q : Nat × Nat, ListedIn E (U t) id o q.1 q.2 := by
    intro t
    obtain ⟨i, j, hi, hj, k⟩ := mem_tags.1 (((h4 t id hid).mem_iff).2 ho)
    exact ⟨(i, j), hi, hj, k⟩
  choose place hl using L
  have slow : ∀ t, (vel ((U t).heap o)).length2 < E.c ^ 2 := by
    intro t
    obtain ⟨hi, hj, sp, hs, _, q, hq, rfl⟩ := hl t
    exact ((h3 t).place _ _ hi hj sp hs q hq).slow
  have X := fun t => work_step h.c h.mass hk (h2 t) (hl t) (slow t)
  choose M e w x1 x2 x3 x4 x5 using X
  refine ⟨place, M, e, w, fun n => ⟨hl n, x1 n, x2 n, x3 n, ?_⟩⟩
  induction n with
  | zero => rw [h0]; simp
  | succ n ih =>
    rw [Finset.sum_range_succ, x5 n, ih]
    ring

/-- The hypotheses of C118 hold: a charged particle that flies through the undivided chamber. -/
example : ∃ (E : Env) (S : State), Chamber E ∧ E.p.Good ∧ E.kind = .borisRelativistic ∧ Scheme E.dist ∧ Alive E [7] S ∧ (∀ k T, Run E S k T → NoBorder E T) ∧
    NoFields E S ∧ Media E S ∧ E.charge 7 ≠ 0 ∧ tagsOf E S.D 7 = [0] ∧ vel (S.heap 0) = ⟨1/2, 0, 1/3⟩ := by
  have h := exEnv_chamber ex_div1 1
  have A : Alive (exEnv 1 1 1) [7] (exState 0 (exPart (3/2) (5/2) (1/2) (1/3) 1 2)) := by
    refine exState_alive ⟨rfl, ?_, ?_, ?_, ?_, ?_, ?_, ?_, ?_⟩ (by rfl)
    · rw [geom_eq h]
      constructor <;> norm_num [exEnv, exPart, low, hgt]
    all_goals norm_num [exEnv, exPart, vel, Vec3.length2, Int.floor_eq_iff]
  refine ⟨exEnv 1 1 1, exState 0 (exPart (3/2) (5/2) (1/2) (1/3) 1 2), h, ?_, rfl, Or.inr rfl, A, ?_, ?_, ?_, by norm_num [exEnv], by rfl, rfl⟩
  · constructor <;> norm_num [exEnv]
  · intro k T r
    obtain ⟨T', u, A', _⟩ := C97_single h (Or.inl rfl) (Or.inr rfl) rfl rfl (by unfold HalfCell exEnv; norm_num) (by simp) A k
    rw [(u T).1 r]
    exact no_border h (Or.inl rfl) rfl rfl (by unfold HalfCell exEnv; norm_num) A'
  · intro i j c x y _ hc
    exact if_neg (fun k => by rw [k] at hc; exact (nomatch hc))
  · intro X Y _
    show 2 * (1 : ℝ) + 0 * (1/2) ≠ 0
    norm_num

end Pic
end Pico
