import Verif.Lemmas.PicStep

/-!
# C97 — whole runs never fail and lose no particle

`Step E S S'` is one pass of the main loop of one process that is divided into domains (fields, push, move, walls, hand-over,
currents), as a relation: undefined behaviour and loops without end lead nowhere.  `Run E S n S'` are `n` passes.
-/

set_option linter.unusedSimpArgs false
set_option linter.unusedVariables false
set_option linter.unusedSectionVars false

namespace Pico
namespace Pic

open SMB Yee

/-- The two deposition schemes of the code, `/repo/src/domain.cpp:38-42`. -/
def Scheme (dist : VB.Ctx ℝ → List (VB.Part ℝ) → Mem ℝ → Res (Mem ℝ)) : Prop :=
  dist = VB.currentDistribution ∨ dist = ZigZag.currentDistribution

theorem scheme_sound {dist : VB.Ctx ℝ → List (VB.Part ℝ) → Mem ℝ → Res (Mem ℝ)} (h : Scheme dist) : Sound dist := by
  rcases h with rfl | rfl
  · exact vb_sound
  · exact zz_sound

/-- C97, one step: from a sane state in which no particle will arrive exactly at a border of its domain there is exactly one
next state, it is sane, and every species has the same particles as before.  Full statement (false, see
`C97_border_fails`): without the condition on the borders. -/
theorem C97_step_partial {E : Env} (h : Chamber E) (hk : Pusher.Relativistic E.kind) (hz : Scheme E.dist)
    {ids : List Nat} (nd : ids.Nodup) {S : State} (A : Alive E ids S) (B : NoBorder E S) :
    ∃ S', (∀ T, Step E S T ↔ T = S') ∧ Alive E ids S' ∧ ∀ id ∈ ids, (tagsOf E S'.D id).Perm (tagsOf E S.D id) := by
  obtain ⟨S', a, b, c, _⟩ := step_all h hk (scheme_sound hz) nd A B
  exact ⟨S', a, b, c⟩

/-- C97, any number of steps. -/
theorem C97_run_partial {E : Env} (h : Chamber E) (hk : Pusher.Relativistic E.kind) (hz : Scheme E.dist)
    {ids : List Nat} (nd : ids.Nodup) {S : State} (A : Alive E ids S) (n : Nat) (B : ∀ k T, k < n → Run E S k T → NoBorder E T) :
    ∃ S', (∀ T, Run E S n T ↔ T = S') ∧ Alive E ids S' ∧ ∀ id ∈ ids, (tagsOf E S'.D id).Perm (tagsOf E S.D id) := by
  induction n with
  | zero =>
    refine ⟨S, fun T => ⟨fun r => ?_, fun e => e ▸ .start⟩, A, fun _ _ => .refl _⟩
    cases r
    rfl
  | succ n ih =>
    obtain ⟨S1, r1, A1, p1⟩ := ih fun k T hk r => B k T (by omega) r
    have R1 := (r1 S1).mpr rfl
    obtain ⟨S2, r2, A2, p2⟩ := C97_step_partial h hk hz nd A1 (B n S1 (by omega) R1)
    refine ⟨S2, fun T => ⟨fun r => ?_, fun e => ?_⟩, A2, fun id hid => (p2 id hid).trans (p1 id hid)⟩
    · cases r with
      | step ra rb =>
        rw [(r1 _).mp ra] at rb
        exact (r2 T).mp rb
    · rw [e]
      exact .step R1 ((r2 S2).mpr rfl)

/-- Light travels at most half a cell per step. -/
def HalfCell (E : Env) : Prop := E.c * E.p.dt ≤ E.p.dr / 2 ∧ E.c * E.p.dt ≤ E.p.dz / 2

theorem no_border_of {E : Env} (h : Chamber E) (h1 : E.domR = 1) (h2 : E.domZ = 1) (hc : HalfCell E)
    {ids : List Nat} {S : State} (A : Alive E ids S) (V : Pushable E S) : NoBorder E S := by
  intro M1 e1 i j hi hj sp hsp o ho junk v ev
  have ha := A.place i j hi hj sp hsp o ho
  obtain ⟨v', p1, p2⟩ := V M1 e1 i j hi hj sp hsp o ho
  obtain rfl := Res.ok.inj ((p1 junk).symm.trans ev)
  have dt : 0 < E.p.dt := h.good.dt
  have ct : 0 < E.c * E.p.dt := mul_pos h.c dt
  generalize S.heap o.tag = a at ha p2
  have sq : (v'.x * E.p.dt) ^ 2 + (v'.y * E.p.dt) ^ 2 + (v'.z * E.p.dt) ^ 2 < (E.c * E.p.dt) ^ 2 := by
    unfold Vec3.length2 at p2
    have := mul_lt_mul_of_pos_right p2 (pow_pos dt 2)
    nlinarith
  have i0 : i = 0 := by omega
  have j0 : j = 0 := by omega
  subst i0 j0
  have q1 := ha.r1
  have q2 := ha.z1
  unfold Clear
  rw [low_zero, low_zero, Nat.cast_zero, zero_mul, zero_mul]
  constructor
  · have := radius_change (r := a.posR) (u := v'.x * E.p.dt) (v := v'.y * E.p.dt) (by linarith [hc.1]) ct.le
      (by nlinarith [sq_nonneg (v'.z * E.p.dt)])
    rw [abs_lt] at this
    unfold landR
    rw [ha.phi, zero_add]
    intro e
    rw [e] at this
    linarith [hc.1]
  · have := abs_lt_of_sq_lt_sq (show (v'.z * E.p.dt) ^ 2 < (E.c * E.p.dt) ^ 2 by
      nlinarith [sq_nonneg (v'.x * E.p.dt), sq_nonneg (v'.y * E.p.dt)]) ct.le
    rw [abs_lt] at this
    unfold landZ
    intro e
    linarith [hc.2]

theorem no_border {E : Env} (h : Chamber E) (hk : Pusher.Relativistic E.kind) (h1 : E.domR = 1) (h2 : E.domZ = 1) (hc : HalfCell E)
    {ids : List Nat} {S : State} (A : Alive E ids S) : NoBorder E S :=
  no_border_of h h1 h2 hc A (pushable h hk A)

/-- **C97** for an undivided chamber and time steps in which light travels at most half a cell: from any sane state the
simulation goes on for ever, in exactly one way; all particles stay between the walls and slower than light, none is lost,
doubled or changes its species. -/
theorem C97_single {E : Env} (h : Chamber E) (hk : Pusher.Relativistic E.kind) (hz : Scheme E.dist)
    (h1 : E.domR = 1) (h2 : E.domZ = 1) (hc : HalfCell E) {ids : List Nat} (nd : ids.Nodup) {S : State} (A : Alive E ids S) (n : Nat) :
    ∃ S', (∀ T, Run E S n T ↔ T = S') ∧ Alive E ids S' ∧ ∀ id ∈ ids, (tagsOf E S'.D id).Perm (tagsOf E S.D id) := by
  have B : ∀ n T, Run E S n T → Alive E ids T := by
    intro n
    induction n with
    | zero =>
      intro T r
      cases r
      exact A
    | succ n ih =>
      intro T r
      cases r with
      | step ra rb =>
        have A' := ih _ ra
        obtain ⟨S2, r2, A2, _⟩ := C97_step_partial h hk hz nd A' (no_border h hk h1 h2 hc A')
        rw [(r2 T).mp rb]
        exact A2
  exact C97_run_partial h hk hz nd A n fun k T _ r => no_border h hk h1 h2 hc (B k T r)

/-! ### Exact borders -/

/-- A particle that arrives exactly at the left border of its domain is not held by the walls. -/
theorem border_move {E : Env} (h : Chamber E) {j : Nat} {a b : Part ℝ} {v : Vec3 ℝ} (hz : landZ E a v = low E.p.nz E.domZ j * E.p.dz)
    (hr : landR E a v < E.p.dr / 2) (hj : j < E.domZ) (ad : Part.Advance E.p.dt (E.geom 0 j) (E.walls 0 j) (setVel a v) b) :
    b.posR = landR E a v ∧ b.posZ = low E.p.nz E.domZ j * E.p.dz ∧ b.cellR = 0 ∧ b.cellZ = low E.p.nz E.domZ j := by
  have dr : 0 < E.p.dr := h.good.geo.dr
  have dz : 0 < E.p.dz := h.good.geo.dz
  obtain ⟨q, b', e1, e2, e3⟩ := ad
  unfold Part.backPos at e1
  dsimp only at e1
  have e : Real.sqrt (((setVel a v).dumpOld.move E.p.dt).posR * ((setVel a v).dumpOld.move E.p.dt).posR +
      ((setVel a v).dumpOld.move E.p.dt).posPhi * ((setVel a v).dumpOld.move E.p.dt).posPhi) = landR E a v := by
    rw [← pow_two, ← pow_two]
    rfl
  rw [e] at e1
  split at e1
  · exact (nomatch e1)
  have e1 := Res.ok.inj e1
  have qr : q.posR = landR E a v := by rw [← e1]
  have qz : q.posZ = low E.p.nz E.domZ j * E.p.dz := by rw [← e1, ← hz]; rfl
  have e2 := (Part.C29_zero_fails (E.walls 0 j) q (Or.inr (by rw [qz, geom_eq h]; exact sub_self _)) b').mp e2
  subst e2
  unfold Part.bindCell at e3
  rw [geom_eq h] at e3
  have p1 : (Part.backVel b').posR = landR E a v := qr
  have p2 : (Part.backVel b').posZ = low E.p.nz E.domZ j * E.p.dz := qz
  dsimp only at e3
  rw [p1, p2] at e3
  have r0 : 0 ≤ landR E a v := Real.sqrt_nonneg _
  have f1 : ⌊landR E a v / E.p.dr⌋ = 0 := by
    rw [Int.floor_eq_zero_iff]
    exact ⟨div_nonneg r0 dr.le, (div_lt_one dr).mpr (by linarith)⟩
  have f2 : ⌊(low E.p.nz E.domZ j : ℝ) * E.p.dz / E.p.dz⌋ = (low E.p.nz E.domZ j : Int) := by
    rw [mul_div_cancel_right₀ _ dz.ne', Int.floor_natCast]
  have bd := (h.div.bounds (i := 0) (by have := h.div.r1; omega) hj).2
  have z3 := h.div.z3
  rw [VB.cellNumber_eq f1 (by norm_num) (by norm_num), Res.ok_bind, VB.cellNumber_eq f2 (by omega) (by omega), Res.ok_bind] at e3
  have e3 := Res.ok.inj e3
  rw [← e3]
  refine ⟨rfl, rfl, ?_, ?_⟩
  · show Part.toSizeT 0 = 0
    rfl
  · show Part.toSizeT (low E.p.nz E.domZ j : Int) = _
    unfold Part.toSizeT
    omega

/-- The step after the next one does not exist. -/
theorem border_stuck {E : Env} (h : Chamber E) (hk : Pusher.Relativistic E.kind) {ids : List Nat} (nd : ids.Nodup) {S : State}
    (A : Alive E ids S) {M1 : Solvers ℝ} (e1 : solveMaxwell (domPar E.p E.domR E.domZ) E.domR E.domZ S.M = .ok M1) {j : Nat}
    (hj : j < E.domZ) {sp : Sp} (hsp : sp ∈ S.D 0 j) {o : Prt} (ho : o ∈ sp.parts) {v : Vec3 ℝ}
    (ev : Pusher.push E.kind (E.pushPar sp.id) true E.e.pi (E.geom 0 j) (M1 0 j) (S.heap o.tag).posR (S.heap o.tag).posZ
      (vel (S.heap o.tag)) = .ok v)
    (hz : landZ E (S.heap o.tag) v = low E.p.nz E.domZ j * E.p.dz) (hr : landR E (S.heap o.tag) v < E.p.dr / 2) {T T' : State}
    (s1 : Step E S T) : ¬ Step E T T' := by
  rintro ⟨N1, f1, f2, _⟩
  obtain ⟨L1, g1, g2, _, g4, _⟩ := s1
  obtain rfl := Res.ok.inj (e1.symm.trans g1)
  have hi : 0 < E.domR := h.div.r1
  have ha := A.place 0 j hi hj sp hsp o ho
  obtain ⟨v', q1, _⟩ := push_ok h hk hi hj ha sp.id (M1 0 j)
  obtain rfl := Res.ok.inj ((q1 true).symm.trans ev)
  obtain ⟨junk, w, ew, ad⟩ := g2 0 j hi hj sp hsp o ho
  obtain rfl := Res.ok.inj ((q1 junk).symm.trans ew)
  obtain ⟨b1, b2, b3, b4⟩ := border_move h hz hr hj ad
  -- the particle is still in its domain
  have k1 := h.div.r1
  have k2 := h.div.r2
  have k3 := h.div.z1
  have k4 := h.div.z2
  obtain ⟨D', c1, c2, c3⟩ := C09_handover_partial (geoOf E.p E.domR E.domZ) (show 0 < E.p.nr by omega) (show 0 < E.p.nz by omega)
    h.div.r4 h.div.z4 ⟨h.r0, rfl⟩ ids nd (cellsOf T.heap S.D) (fun i j => by
      rw [← A.species i j]
      unfold cellsOf
      rw [List.map_map]
      rfl)
  obtain rfl := Res.ok.inj (g4.symm.trans c1)
  have bz := (h.div.bounds hi hj).2
  have br := (h.div.bounds hi hj).1
  have z3 := h.div.z3
  have hid : sp.id ∈ ids := by rw [← A.species 0 j]; exact List.mem_map_of_mem hsp
  have m : (⟨asInt (T.heap o.tag).cellR, asInt (T.heap o.tag).cellZ, o.tag⟩ : Prt) ∈ SMB.parts T.D 0 j sp.id := by
    refine (c3 0 j sp.id hi hj hid).mem_iff.mpr (List.mem_flatMap.mpr ⟨(0, j), mem_allDoms.mpr ⟨hi, hj⟩, List.mem_filter.mpr ⟨?_, ?_⟩⟩)
    · rw [parts_cells]
      exact List.mem_map_of_mem (f := fun o : Prt => (⟨asInt (T.heap o.tag).cellR, asInt (T.heap o.tag).cellZ, o.tag⟩ : Prt))
        (mem_parts.mpr ⟨sp, hsp, rfl, ho⟩)
    · rw [decide_eq_true_eq, dims_eq h]
      unfold CellDims.Owns
      dsimp only
      rw [b3, b4, asInt_small h (by norm_num), asInt_small h (by omega), ← low_hgt h k1 k2, ← low_hgt h k3 k4, low_zero]
      omega
  obtain ⟨sp', hsp', _, ho'⟩ := mem_parts.mp m
  obtain ⟨junk', w', ew', _⟩ := f2 0 j hi hj sp' hsp' _ ho'
  unfold Pusher.push at ew'
  have ub := (Interp.C23_axis_division (pi := E.e.pi) (geom_good h hi hj) (r := (T.heap o.tag).posR) (z := (T.heap o.tag).posZ)
    (by rw [b1]; exact Real.sqrt_nonneg _) (by rw [b1, geom_eq h]; exact hr) (N1 0 j)).1
  dsimp only at ew'
  rw [ub] at ew'
  exact (nomatch ew')

theorem run_head {E : Env} {S T : State} {n : Nat} (r : Run E S (n + 1) T) : ∃ S1, Step E S S1 ∧ Run E S1 n T := by
  induction n generalizing T with
  | zero =>
    cases r with
    | step r s =>
      cases r
      exact ⟨T, s, .start⟩
  | succ n ih =>
    cases r with
    | step r s =>
      obtain ⟨S1, a, b⟩ := ih r
      exact ⟨S1, a, .step b s⟩

/-- The full C97 fails: if a particle of the first row arrives exactly at the left border of its domain and nearer to the axis
than half a cell, there is no run of two or more steps: the walls did not hold the particle, and the fields at its
position are not defined. -/
theorem C97_border_fails {E : Env} (h : Chamber E) (hk : Pusher.Relativistic E.kind) {ids : List Nat} (nd : ids.Nodup) {S : State}
    (A : Alive E ids S) {M1 : Solvers ℝ} (e1 : solveMaxwell (domPar E.p E.domR E.domZ) E.domR E.domZ S.M = .ok M1) {j : Nat}
    (hj : j < E.domZ) {sp : Sp} (hsp : sp ∈ S.D 0 j) {o : Prt} (ho : o ∈ sp.parts) {v : Vec3 ℝ}
    (ev : Pusher.push E.kind (E.pushPar sp.id) true E.e.pi (E.geom 0 j) (M1 0 j) (S.heap o.tag).posR (S.heap o.tag).posZ
      (vel (S.heap o.tag)) = .ok v)
    (hz : landZ E (S.heap o.tag) v = low E.p.nz E.domZ j * E.p.dz) (hr : landR E (S.heap o.tag) v < E.p.dr / 2) (n : Nat) (T : State) :
    ¬ Run E S (n + 2) T := by
  intro r
  obtain ⟨S1, s1, r⟩ := run_head r
  obtain ⟨S2, s2, _⟩ := run_head r
  exact border_stuck h hk nd A e1 hj hsp ho ev hz hr s1 s2

/-! ### Non-vacuity -/

/-- A particle without charge keeps its velocity. -/
theorem neutral {E : Env} (h : Chamber E) (hk : E.kind = .borisRelativistic) {i j : Nat} (hi : i < E.domR) (hj : j < E.domZ)
    {a : Part ℝ} (ha : InPlace E i j a) {id : Nat} (hq : E.charge id = 0) (m : Mem ℝ) (junk : Bool) :
    Pusher.push E.kind (E.pushPar id) junk E.e.pi (E.geom i j) m a.posR a.posZ (vel a) = .ok (vel a) := by
  have e : (E.geom i j).dr / 2 ≤ a.posR := by
    rw [geom_eq h]
    exact ha.r1
  have c1 := Interp.C23_electric_partial h.good.pi (geom_good h hi hj) ha.dom e m
  have c2 := Interp.C23_magnetic h.good.pi (geom_good h hi hj) ha.dom e m
  dsimp only at c1
  have c1 : Interp.getE E.e.pi (E.geom i j) m a.posR a.posZ = _ := c1
  have c2 : Interp.getH E.e.pi (E.geom i j) m a.posR a.posZ = _ := c2
  unfold Pusher.push
  rw [c1, Res.ok_bind, c2, Res.ok_bind, hk]
  show Pusher.borisRel _ _ _ _ = _
  obtain ⟨γ, eg, hg, hγ, R⟩ := Pusher.boris_eq (E.pushPar id) h.c _ _ (vel a) ha.slow
  have k0 : (E.pushPar id).k = 0 := by
    unfold Pusher.Par.k
    show E.charge id * _ / _ = 0
    rw [hq, zero_mul, zero_div]
  have s0 : ∀ w : Vec3 ℝ, w.smul 0 = Vec3.zero := fun w => by simp [Vec3.smul, Vec3.zero]
  dsimp only at R
  rw [R, k0, zero_mul, s0, s0, Pusher.add_zero', Pusher.add_zero', Pusher.smul_zero', Pusher.rotate_zero, Rel.len2_smul,
    Rel.smul_smul', mul_comm γ, Rel.inv_of_lorenz (c := (E.pushPar id).c) h.c (Rel.len2_nonneg _) hg hγ, Rel.smul_one']

/-- A chamber of 4 × 4 cells in `R × Z` domains; light travels half a cell per step; the particles have charge `q`. -/
noncomputable def exEnv (R Z : Nat) (q : ℝ) : Env where
  p := ⟨1, 1, 1/2, 1, 0, 4, 4, ⟨true, true, true, true⟩⟩
  domR := R
  domZ := Z
  e := ⟨3, 1/1000, fun _ => 0⟩
  c := 1
  lim := 1/100
  kind := .borisRelativistic
  dist := ZigZag.currentDistribution
  charge := fun _ => q
  mass := fun _ => 1

theorem exEnv_chamber {R Z : Nat} (h : Divided (exEnv R Z 0).p R Z) (q : ℝ) : Chamber (exEnv R Z q) where
  r0 := rfl
  walls := rfl
  div := h
  good := by refine ⟨⟨?_, ?_, ?_, ?_⟩, ?_, ?_, ?_⟩ <;> norm_num [ctxOf, exEnv]
  c := by norm_num [exEnv]
  cr := by norm_num [exEnv]
  cz := by norm_num [exEnv]
  mass := fun _ => by norm_num [exEnv]

/-- A particle of the first row. -/
noncomputable def exPart (r z vr vz : ℝ) (nr nz : Nat) : Part ℝ := ⟨r, 0, z, r, 0, z, vr, 0, vz, 1, 0, nr, nz, 0, 7⟩

/-- Empty space: permittivity one, no fields and currents. -/
noncomputable def exMedium : Mem ℝ := fun c _ _ => if c = .eps then 1 else 0

/-- One particle, in domain `(0, J)`; no fields. -/
noncomputable def exState (J : Nat) (a : Part ℝ) : State where
  M := fun _ _ => exMedium
  heap := fun _ => a
  D := fun i j => [⟨7, if i = 0 ∧ j = J then [⟨0, 0, 0⟩] else []⟩]

theorem ex_listed {J i j : Nat} {a : Part ℝ} {sp : Sp} (hsp : sp ∈ (exState J a).D i j) {o : Prt} (ho : o ∈ sp.parts) :
    i = 0 ∧ j = J ∧ sp.id = 7 := by
  obtain rfl := List.mem_singleton.mp hsp
  have ho : o ∈ (if i = 0 ∧ j = J then [(⟨0, 0, 0⟩ : Prt)] else []) := ho
  split_ifs at ho with c
  · exact ⟨c.1, c.2, rfl⟩
  · simp at ho

theorem exState_alive {R Z J : Nat} {q : ℝ} {a : Part ℝ} (hp : InPlace (exEnv R Z q) 0 J a)
    (ht : [7].flatMap (tagsOf (exEnv R Z q) (exState J a).D) = [0]) : Alive (exEnv R Z q) [7] (exState J a) where
  species := fun _ _ => rfl
  once := by rw [ht]; exact List.nodup_singleton 0
  place := by
    intro i j _ _ sp hsp o ho
    obtain ⟨rfl, rfl, _⟩ := ex_listed hsp ho
    exact hp
  fields := ⟨exMedium, fun c hc i j x y _ => ⟨fun _ => rfl, fun _ => if_neg (fun k => by rw [k] at hc; exact (nomatch hc))⟩⟩

theorem ex_div1 : Divided (exEnv 1 1 0).p 1 1 := ⟨by decide, by decide, by decide, by decide, by decide, by decide, by decide, by decide, by decide⟩
theorem ex_div2 : Divided (exEnv 2 2 0).p 2 2 := ⟨by decide, by decide, by decide, by decide, by decide, by decide, by decide, by decide, by decide⟩

/-- The hypotheses of `C97_single`: a charged particle in the undivided chamber. -/
example : Chamber (exEnv 1 1 1) ∧ HalfCell (exEnv 1 1 1) ∧ Alive (exEnv 1 1 1) [7] (exState 0 (exPart (3/2) (5/2) (1/2) (1/3) 1 2)) := by
  have h := exEnv_chamber ex_div1 1
  refine ⟨h, by unfold HalfCell exEnv; norm_num, exState_alive ⟨rfl, ?_, ?_, ?_, ?_, ?_, ?_, ?_, ?_⟩ (by rfl)⟩
  · rw [geom_eq h]
    constructor <;> norm_num [exEnv, exPart, low, hgt]
  all_goals norm_num [exEnv, exPart, vel, Vec3.length2, Int.floor_eq_iff]

theorem ex_geom (j : Nat) : (exEnv 2 2 0).geom 0 j = ⟨1, 1, 0, low 4 2 j, 2, hgt 4 2 j⟩ := by
  rw [geom_eq (exEnv_chamber ex_div2 0)]
  norm_num [exEnv, low, hgt]

theorem ex_cross : InPlace (exEnv 2 2 0) 0 0 (exPart (19/10) (19/10) (3/10) (4/10) 1 1) := by
  refine ⟨rfl, ?_, ?_, ?_, ?_, ?_, ?_, ?_, ?_⟩
  · rw [ex_geom]
    constructor <;> norm_num [exEnv, exPart, low, hgt]
  all_goals norm_num [exEnv, exPart, vel, Vec3.length2, Int.floor_eq_iff]

/-- The hypotheses of `C97_step_partial` for a divided chamber: a particle that crosses a corner between four domains. -/
example : Chamber (exEnv 2 2 0) ∧ Alive (exEnv 2 2 0) [7] (exState 0 (exPart (19/10) (19/10) (3/10) (4/10) 1 1)) ∧
    NoBorder (exEnv 2 2 0) (exState 0 (exPart (19/10) (19/10) (3/10) (4/10) 1 1)) := by
  refine ⟨exEnv_chamber ex_div2 0, exState_alive ex_cross (by rfl), ?_⟩
  intro M1 _ i j hi hj sp hsp o ho junk v ev
  obtain ⟨rfl, rfl, _⟩ := ex_listed hsp ho
  have := neutral (exEnv_chamber ex_div2 0) rfl hi hj ex_cross (id := sp.id) rfl (M1 0 0) junk
  obtain rfl := Res.ok.inj (ev.symm.trans this)
  unfold Clear
  rw [low_zero, low_zero]
  constructor
  · unfold landR
    rw [Nat.cast_zero, zero_mul]
    refine (Real.sqrt_pos.mpr ?_).ne'
    norm_num [exEnv, exPart, exState, vel]
  · norm_num [landZ, exEnv, exPart, exState, vel]

theorem ex_border : InPlace (exEnv 2 2 0) 0 1 (exPart (6/10) (22/10) (-4/10) (-4/10) 0 2) := by
  refine ⟨rfl, ?_, ?_, ?_, ?_, ?_, ?_, ?_, ?_⟩
  · rw [ex_geom]
    constructor <;> norm_num [exEnv, exPart, low, hgt]
  all_goals norm_num [exEnv, exPart, vel, Vec3.length2, Int.floor_eq_iff]

/-- C97 fails: a concrete run that ends. -/
example (n : Nat) (T : State) : ¬ Run (exEnv 2 2 0) (exState 1 (exPart (6/10) (22/10) (-4/10) (-4/10) 0 2)) (n + 2) T := by
  have h := exEnv_chamber ex_div2 0
  have A : Alive (exEnv 2 2 0) [7] (exState 1 (exPart (6/10) (22/10) (-4/10) (-4/10) 0 2)) := exState_alive ex_border (by rfl)
  intro r
  obtain ⟨S1, s1, r'⟩ := run_head r
  obtain ⟨M1, e1, _⟩ := s1
  refine C97_border_fails h (Or.inl rfl) (by simp) A e1 (j := 1) (by decide) (sp := ⟨7, [⟨0, 0, 0⟩]⟩) (by simp [exState]) (o := ⟨0, 0, 0⟩)
    (by simp) (neutral h rfl (by decide) (by decide) ex_border rfl (M1 0 1) true) ?_ ?_ n T r
  · norm_num [landZ, exEnv, exPart, exState, vel, low]
  · unfold landR
    rw [Real.sqrt_lt' (by norm_num [exEnv])]
    norm_num [exEnv, exPart, exState, vel]

end Pic
end Pico
