import Verif.Props.PicStart
import Verif.Props.Pusher
import Verif.Props.PicEnergy

/-!
# C27 for whole runs — the default pusher

The default build switches between the classical and the relativistic Boris pusher with a flag it never clears.  Which of its runs are those of
the other builds.
-/

set_option linter.unusedVariables false

namespace Pico
namespace Pic

open SMB Yee

/-- The same simulation built with another pusher. -/
def Env.with (E : Env) (k : Pusher.Kind) : Env := { E with kind := k }

/-- All particles are faster than the switch. -/
def Fast (E : Env) (S : State) : Prop :=
  ∀ i j, i < E.domR → j < E.domZ → ∀ sp ∈ S.D i j, ∀ o ∈ sp.parts, E.lim < (vel (S.heap o.tag)).length2

/-- No particle is faster than the switch. -/
def Slow (E : Env) (S : State) : Prop :=
  ∀ i j, i < E.domR → j < E.domZ → ∀ sp ∈ S.D i j, ∀ o ∈ sp.parts, (vel (S.heap o.tag)).length2 ≤ E.lim

theorem push_adaptive_true (P : Pusher.Par) (pi : ℝ) (g : Geom ℝ) (m : Mem ℝ) (r z : ℝ) (v : Vec3 ℝ) (junk : Bool) :
    Pusher.push .borisAdaptive P true pi g m r z v = Pusher.push .borisRelativistic P junk pi g m r z v := by
  unfold Pusher.push Pusher.pushV Pusher.borisAdaptive
  simp

theorem push_adaptive_fast (P : Pusher.Par) (pi : ℝ) (g : Geom ℝ) (m : Mem ℝ) (r z : ℝ) (v : Vec3 ℝ) (h : P.lim < v.length2) (junk : Bool) :
    Pusher.push .borisAdaptive P junk pi g m r z v = Pusher.push .borisRelativistic P junk pi g m r z v := by
  unfold Pusher.push Pusher.pushV
  dsimp only
  congr 1
  funext e
  congr 1
  funext b
  exact Pusher.C27_fast_partial P junk e b v h

theorem push_adaptive_slow (P : Pusher.Par) (pi : ℝ) (g : Geom ℝ) (m : Mem ℝ) (r z : ℝ) (v : Vec3 ℝ) (h : v.length2 ≤ P.lim) (junk : Bool) :
    Pusher.push .borisAdaptive P false pi g m r z v = Pusher.push .boris P junk pi g m r z v := by
  unfold Pusher.push Pusher.pushV Pusher.borisAdaptive
  have : ¬ v.x ^ 2 + v.y ^ 2 + v.z ^ 2 > P.lim := by
    have : v.length2 = v.x ^ 2 + v.y ^ 2 + v.z ^ 2 := by unfold Vec3.length2; ring
    rw [this] at h
    exact not_lt.mpr h
  simp [this]

theorem step_with {E : Env} {k k' : Pusher.Kind} {S S' : State}
    (h : ∀ i j, i < E.domR → j < E.domZ → ∀ sp ∈ S.D i j, ∀ o ∈ sp.parts, ∀ m b, Moves (E.with k) i j m sp.id (S.heap o.tag) b → Moves (E.with k') i j m sp.id (S.heap o.tag) b)
    (s : Step (E.with k) S S') : Step (E.with k') S S' := by
  obtain ⟨M1, a, b, c, d, e⟩ := s
  exact ⟨M1, a, fun i j hi hj sp hsp o ho => h i j hi hj sp hsp o ho _ _ (b i j hi hj sp hsp o ho), c, d, e⟩

/-- C27 for runs: whatever the relativistic build does, the default build may do as well.  So all runs whose existence is proved for the
relativistic Boris pusher are possible runs of the default build. -/
theorem C27_possible (E : Env) {S T : State} {n : Nat} (r : Run (E.with .borisRelativistic) S n T) : Run (E.with .borisAdaptive) S n T := by
  induction r with
  | start => exact .start
  | step _ s ih =>
    refine .step ih (step_with (fun i j hi hj sp hsp o ho m b => ?_) s)
    rintro ⟨junk, v, e, adv⟩
    exact ⟨true, v, (push_adaptive_true _ _ _ _ _ _ _ junk).trans e, adv⟩

/-- C27 for runs, as far as it holds: as long as all particles are faster than the switch the default build does exactly what the relativistic
build does: the same runs exist. -/
theorem C27_fast_run_partial (E : Env) {S T : State} {n : Nat} (fast : ∀ k U, k < n → Run (E.with .borisAdaptive) S k U → Fast E U) :
    Run (E.with .borisAdaptive) S n T ↔ Run (E.with .borisRelativistic) S n T := by
  refine ⟨fun r => ?_, C27_possible E⟩
  induction r with
  | start => exact .start
  | @step n S' S'' r s ih =>
    refine .step (ih fun k U hk => fast k U (by omega)) (step_with (fun i j hi hj sp hsp o ho m b => ?_) s)
    rintro ⟨junk, v, e, adv⟩
    have f := fast n S' (by omega) r i j hi hj sp hsp o ho
    exact ⟨junk, v, (push_adaptive_fast _ _ _ _ _ _ _ f junk).symm.trans e, adv⟩

/-- And as long as none is faster, what the classical build does is possible too (with a flag that happens to be clear). -/
theorem C27_slow_possible (E : Env) {S T : State} {n : Nat} (r : Run (E.with .boris) S n T) (slow : ∀ k U, k < n → Run (E.with .boris) S k U → Slow E U) :
    Run (E.with .borisAdaptive) S n T := by
  induction r with
  | start => exact .start
  | @step n S' S'' r s ih =>
    refine .step (ih fun k U hk => slow k U (by omega)) (step_with (fun i j hi hj sp hsp o ho m b => ?_) s)
    rintro ⟨junk, v, e, adv⟩
    have f := slow n S' (by omega) r i j hi hj sp hsp o ho
    exact ⟨false, v, (push_adaptive_slow _ _ _ _ _ _ _ f junk).trans e, adv⟩

/-- So the default build with any fair placement can always go on in an undivided chamber, and one of its runs keeps all particles inside the
chamber and slower than light. -/
theorem C27_goes_on {E : Env} (h : Chamber (E.with .borisRelativistic)) (hz : Scheme E.dist) (h1 : E.domR = 1) (h2 : E.domZ = 1) (half : HalfCell (E.with .borisRelativistic))
    {ids : List Nat} (nd : ids.Nodup) {S : State} (A : Alive (E.with .borisRelativistic) ids S) (n : Nat) :
    ∃ S', Run (E.with .borisAdaptive) S n S' ∧ Alive (E.with .borisRelativistic) ids S' := by
  obtain ⟨S', a, b, _⟩ := C97_single h (.inl rfl) hz h1 h2 half nd A n
  exact ⟨S', C27_possible E ((a S').mpr rfl), b⟩

/-! ### The classical pusher -/

/-- What the electric force can add to the speed of each particle in the next step leaves it below the speed of light. -/
def Gentle (E : Env) (S : State) : Prop :=
  ∀ M1, solveMaxwell (domPar E.p E.domR E.domZ) E.domR E.domZ S.M = .ok M1 → ∀ i j, i < E.domR → j < E.domZ → ∀ sp ∈ S.D i j, ∀ o ∈ sp.parts, ∀ e,
    Interp.getE E.e.pi (E.geom i j) (M1 i j) (S.heap o.tag).posR (S.heap o.tag).posZ = .ok e →
    Real.sqrt (vel (S.heap o.tag)).length2 + E.p.dt * |E.charge sp.id| / E.mass sp.id * Real.sqrt e.length2 < E.c

theorem len_add (a b : Vec3 ℝ) : Real.sqrt (a.add b).length2 ≤ Real.sqrt a.length2 + Real.sqrt b.length2 := by
  have ha := Rel.len2_nonneg a
  have hb := Rel.len2_nonneg b
  refine Real.sqrt_le_iff.mpr ⟨add_nonneg (Real.sqrt_nonneg _) (Real.sqrt_nonneg _), ?_⟩
  have cs : a.x * b.x + a.y * b.y + a.z * b.z ≤ Real.sqrt a.length2 * Real.sqrt b.length2 := by
    rw [← Real.sqrt_mul ha]
    refine Real.le_sqrt_of_sq_le ?_
    unfold Vec3.length2
    nlinarith [sq_nonneg (a.x * b.y - a.y * b.x), sq_nonneg (a.x * b.z - a.z * b.x), sq_nonneg (a.y * b.z - a.z * b.y)]
  have e1 := Real.sq_sqrt ha
  have e2 := Real.sq_sqrt hb
  have e3 : (a.add b).length2 = a.length2 + b.length2 + 2 * (a.x * b.x + a.y * b.y + a.z * b.z) := by
    simp only [Vec3.length2, Vec3.add, Vec3.zip]
    ring
  nlinarith

/-- The classical pusher adds at most the electric force times the time step to the speed. -/
theorem classic_speed (P : Pusher.Par) (e b v : Vec3 ℝ) :
    Real.sqrt (Pusher.borisClassic P e b v).length2 ≤ Real.sqrt v.length2 + 2 * (|P.k| * Real.sqrt e.length2) := by
  unfold Pusher.borisClassic
  dsimp only
  have l : Real.sqrt (e.smul P.k).length2 = |P.k| * Real.sqrt e.length2 := by
    rw [Rel.len2_smul, Real.sqrt_mul (sq_nonneg _), Real.sqrt_sq_eq_abs]
  have a1 := len_add (Pusher.rotate (b.smul (P.k * P.mu)) (v.add (e.smul P.k))) (e.smul P.k)
  rw [Pusher.rotate_norm] at a1
  have a2 := len_add v (e.smul P.k)
  rw [l] at a1 a2
  linarith

theorem fields_ok {E : Env} (h : Chamber E) {i j : Nat} (hi : i < E.domR) (hj : j < E.domZ) {a : Part ℝ} (ha : InPlace E i j a) (m : Mem ℝ) :
    ∃ e b, Interp.getE E.e.pi (E.geom i j) m a.posR a.posZ = .ok e ∧ Interp.getH E.e.pi (E.geom i j) m a.posR a.posZ = .ok b := by
  have e : (E.geom i j).dr / 2 ≤ a.posR := by
    rw [geom_eq h]
    exact ha.r1
  exact ⟨_, _, Interp.C23_electric_partial h.good.pi (geom_good h hi hj) ha.dom e m, Interp.C23_magnetic h.good.pi (geom_good h hi hj) ha.dom e m⟩

theorem pushable_classic {E : Env} (h : Chamber E) (hk : E.kind = .boris) (hm : ∀ id, 0 < E.mass id) {ids : List Nat} {S : State} (A : Alive E ids S)
    (G : Gentle E S) : Pushable E S := by
  intro M1 e1 i j hi hj sp hsp o ho
  obtain ⟨e, b, ee, eb⟩ := fields_ok h hi hj (A.place i j hi hj sp hsp o ho) (M1 i j)
  refine ⟨Pusher.borisClassic (E.pushPar sp.id) e b (vel (S.heap o.tag)), fun junk => ?_, ?_⟩
  · unfold Pusher.push
    rw [ee, Res.ok_bind, eb, Res.ok_bind, hk]
    rfl
  · have g := G M1 e1 i j hi hj sp hsp o ho e ee
    have c := classic_speed (E.pushPar sp.id) e b (vel (S.heap o.tag))
    have k : 2 * (|(E.pushPar sp.id).k| * Real.sqrt e.length2) = E.p.dt * |E.charge sp.id| / E.mass sp.id * Real.sqrt e.length2 := by
      have : |(E.pushPar sp.id).k| = E.p.dt * |E.charge sp.id| / E.mass sp.id / 2 := by
        unfold Pusher.Par.k
        have m0 := hm sp.id
        have d0 : 0 < E.p.dt := h.good.dt
        show |E.charge sp.id * E.p.dt / (2 * E.mass sp.id)| = _
        rw [abs_div, abs_mul, abs_of_pos d0, abs_of_pos (by positivity : (0 : ℝ) < 2 * E.mass sp.id)]
        field_simp
      rw [this]
      ring
    rw [k] at c
    have := c.trans_lt g
    exact (Real.sqrt_lt' h.c).mp this

theorem run_of {E : Env} (h : Chamber E) (hz : Scheme E.dist)
    {ids : List Nat} (nd : ids.Nodup) {S : State} (A : Alive E ids S) (n : Nat) (B : ∀ k T, k < n → Run E S k T → Alive E ids T → NoBorder E T ∧ Pushable E T) :
    ∃ S', (∀ T, Run E S n T ↔ T = S') ∧ Alive E ids S' ∧ ∀ id ∈ ids, (tagsOf E S'.D id).Perm (tagsOf E S.D id) := by
  induction n with
  | zero =>
    refine ⟨S, fun T => ⟨fun r => ?_, fun e => e ▸ .start⟩, A, fun _ _ => .refl _⟩
    cases r
    rfl
  | succ n ih =>
    obtain ⟨S1, r1, A1, p1⟩ := ih fun k T hk r => B k T (by omega) r
    have R1 := (r1 S1).mpr rfl
    obtain ⟨b1, b2⟩ := B n S1 (by omega) R1 A1
    obtain ⟨S2, r2, A2, p2, _⟩ := step_all_of h (scheme_sound hz) nd A1 b2 b1
    refine ⟨S2, fun T => ⟨fun r => ?_, fun e => ?_⟩, A2, fun id hid => (p2 id hid).trans (p1 id hid)⟩
    · cases r with
      | step ra rb =>
        rw [(r1 _).mp ra] at rb
        exact (r2 T).mp rb
    · rw [e]
      exact .step R1 ((r2 S2).mpr rfl)

/-- **C97** for the build with the classical pusher, in an undivided chamber: as long as the electric force does not bring a particle to the speed of
light, there is exactly one run, it never fails, all particles stay inside and are kept. -/
theorem C97_classical_partial {E : Env} (h : Chamber E) (hk : E.kind = .boris) (hm : ∀ id, 0 < E.mass id) (hz : Scheme E.dist)
    (h1 : E.domR = 1) (h2 : E.domZ = 1) (half : HalfCell E) {ids : List Nat} (nd : ids.Nodup) {S : State} (A : Alive E ids S) (n : Nat)
    (gentle : ∀ k T, k < n → Run E S k T → Gentle E T) :
    ∃ S', (∀ T, Run E S n T ↔ T = S') ∧ Alive E ids S' ∧ ∀ id ∈ ids, (tagsOf E S'.D id).Perm (tagsOf E S.D id) :=
  run_of h hz nd A n fun k T hn r A' => ⟨no_border_of h h1 h2 half A' (pushable_classic h hk hm A' (gentle k T hn r)), pushable_classic h hk hm A' (gentle k T hn r)⟩

/-- **C97** for uncharged species: with every pusher, the default one too, there is exactly one run. -/
theorem C97_neutral {E : Env} (h : Chamber E) (hq : ∀ id, E.charge id = 0) (hz : Scheme E.dist)
    (h1 : E.domR = 1) (h2 : E.domZ = 1) (half : HalfCell E) {ids : List Nat} (nd : ids.Nodup) {S : State} (A : Alive E ids S) (n : Nat) :
    ∃ S', (∀ T, Run E S n T ↔ T = S') ∧ Alive E ids S' ∧ ∀ id ∈ ids, (tagsOf E S'.D id).Perm (tagsOf E S.D id) := by
  refine run_of h hz nd A n fun k T hn r A' => ?_
  have V : Pushable E T := by
    intro M1 e1 i j hi hj sp hsp o ho
    have pl := A'.place i j hi hj sp hsp o ho
    obtain ⟨e, b, ee, eb⟩ := fields_ok h hi hj pl (M1 i j)
    refine ⟨vel (T.heap o.tag), fun junk => ?_, pl.slow⟩
    unfold Pusher.push
    rw [ee, Res.ok_bind, eb, Res.ok_bind]
    exact push_neutral E.kind junk h.c (hq sp.id) e b _ pl.slow
  exact ⟨no_border_of h h1 h2 half A' V, V⟩

/-- The hypotheses of `C27_goes_on`: the example of C97. -/
example : Chamber ((exEnv 1 1 1).with .borisRelativistic) ∧ HalfCell ((exEnv 1 1 1).with .borisRelativistic) ∧
    Alive ((exEnv 1 1 1).with .borisRelativistic) [7] (exState 0 (exPart (3/2) (5/2) (1/2) (1/3) 1 2)) := by
  have h := exEnv_chamber ex_div1 1
  refine ⟨h, by unfold HalfCell exEnv Env.with; norm_num, exState_alive (R := 1) (Z := 1) (q := 1) ⟨rfl, ?_, ?_, ?_, ?_, ?_, ?_, ?_, ?_⟩ (by rfl)⟩
  · rw [geom_eq h]
    constructor <;> norm_num [exEnv, exPart, low, hgt]
  all_goals norm_num [exEnv, exPart, vel, Vec3.length2, Int.floor_eq_iff]

/-- A fast particle: the hypothesis of `C27_fast_run_partial` for the first step. -/
example (U : State) (r : Run ((exEnv 1 1 1).with .borisAdaptive) (exState 0 (exPart (3/2) (5/2) (1/2) (1/3) 1 2)) 0 U) : Fast (exEnv 1 1 1) U := by
  cases r
  intro i j _ _ sp hsp o ho
  norm_num [exEnv, exPart, vel, Vec3.length2, exState]

/-- Neutral particles in the default and in the classical build: the hypotheses of `C97_neutral` and of `C97_classical_partial` hold for any number of steps. -/
example (n : Nat) (k : Pusher.Kind) : ∃ S', ∀ T, Run ((exEnv 1 1 0).with k) (exState 0 (exPart (3/2) (5/2) (1/2) (1/3) 1 2)) n T ↔ T = S' := by
  have h := exEnv_chamber ex_div1 0
  have A : Alive ((exEnv 1 1 0).with k) [7] (exState 0 (exPart (3/2) (5/2) (1/2) (1/3) 1 2)) := by
    have A : Alive (exEnv 1 1 0) [7] (exState 0 (exPart (3/2) (5/2) (1/2) (1/3) 1 2)) := by
      refine exState_alive (R := 1) (Z := 1) (q := 0) ⟨rfl, ?_, ?_, ?_, ?_, ?_, ?_, ?_, ?_⟩ (by rfl)
      · rw [geom_eq h]
        constructor <;> norm_num [exEnv, exPart, low, hgt]
      all_goals norm_num [exEnv, exPart, vel, Vec3.length2, Int.floor_eq_iff]
    obtain ⟨a, b, c, d⟩ := A
    exact ⟨a, b, fun i j hi hj sp hsp o ho => by obtain ⟨⟩ := c i j hi hj sp hsp o ho; constructor <;> assumption, d⟩
  have h' : Chamber ((exEnv 1 1 0).with k) := by obtain ⟨⟩ := h; constructor <;> assumption
  obtain ⟨S', a, _⟩ := C97_neutral h' (fun _ => rfl) (.inr rfl) rfl rfl (by unfold HalfCell exEnv Env.with; norm_num) (by decide) A n
  exact ⟨S', a⟩

example (n : Nat) (S : State) (A : Alive ((exEnv 1 1 0).with .boris) [7] S) : Gentle ((exEnv 1 1 0).with .boris) S := by
  intro M1 _ i j hi hj sp hsp o ho e _
  have s := (A.place i j hi hj sp hsp o ho).slow
  have c : ((exEnv 1 1 0).with .boris).charge sp.id = 0 := rfl
  have c1 : 0 < ((exEnv 1 1 0).with .boris).c := by norm_num [exEnv, Env.with]
  rw [c]
  simp only [abs_zero, mul_zero, zero_div, zero_mul, add_zero]
  exact (Real.sqrt_lt' c1).mpr s

end Pic
end Pico
