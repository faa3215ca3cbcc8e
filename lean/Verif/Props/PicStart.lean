import Verif.Lemmas.PicBegin
import Verif.Props.PicBeam
import Verif.Props.PicFull
import Mathlib.Data.Nat.Pairing

/-! Property C110: from the configuration to the run. -/

set_option linter.unusedSimpArgs false
set_option linter.unusedVariables false
set_option linter.unusedSectionVars false

namespace Pico
namespace Pic

open SMB Yee

/-! ### One species of one domain -/

section
variable {X : Setup} (h : X.Sane)
include h

theorem Setup.Sane.good (id : Nat) : (X.cst id).Good := ⟨h.chamber.c, h.lim, h.lim3, h.q, h.chamber.mass id⟩

theorem density_nonneg {s : Species} (hs : s ∈ X.species) {cell : Nat} (hc : cell ≤ X.env.p.nz) :
    0 ≤ Place.localDensity s.left s.right (X.env.p.nz * X.env.p.dz) X.env.p.dz cell := by
  obtain ⟨a, b, _⟩ := h.plasma s hs
  have dz : 0 < X.env.p.dz := h.chamber.good.geo.dz
  have n1 : 1 ≤ X.env.p.nz := by have := h.chamber.div.z1; have := h.chamber.div.z2; omega
  have n0 : (0 : ℝ) < X.env.p.nz := by exact_mod_cast n1
  unfold Place.localDensity
  have e : s.left + (s.right - s.left) / (X.env.p.nz * X.env.p.dz) * cell * X.env.p.dz =
      s.left * ((X.env.p.nz - cell) / X.env.p.nz) + s.right * (cell / X.env.p.nz) := by
    field_simp
    ring
  rw [e]
  have c : (cell : ℝ) ≤ X.env.p.nz := by exact_mod_cast hc
  have : 0 ≤ ((X.env.p.nz : ℝ) - cell) / X.env.p.nz := div_nonneg (by linarith) n0.le
  positivity

variable {i j : Nat} (hi : i < X.env.domR) (hj : j < X.env.domZ)
include hi hj

theorem ends_nonneg {s : Species} (hs : s ∈ X.species) : 0 ≤ leftOf X i j s ∧ 0 ≤ rightOf X i j s := by
  obtain ⟨_, z1, z2, _⟩ := h.chamber.div.bounds hi hj
  unfold leftOf rightOf
  rw [geom_eq h.chamber]
  exact ⟨density_nonneg h hs (by dsimp only; omega), density_nonneg h hs (by dsimp only; omega)⟩

theorem sizes : 2 ≤ (X.env.geom i j).nr ∧ 2 ≤ (X.env.geom i j).nz := by
  obtain ⟨⟨r1, _⟩, z1, _⟩ := h.chamber.div.bounds hi hj
  rw [geom_eq h.chamber]
  exact ⟨r1, z1⟩

theorem amount_small {s : Species} {n : Nat} (ha : Amount X i j s n) :
    n < 2 ^ 32 ∧ ((X.spatial = .flat ∨ X.spatial = .random) → n < 2 ^ 31) := by
  obtain ⟨⟨a0, a1⟩, a2⟩ := ha
  have f : ⌊s.amount / X.env.domR / X.env.domZ⌋₊ < 2 ^ 31 := by
    rw [Nat.floor_lt a0]
    exact_mod_cast a1
  cases e : X.spatial <;> rw [e] at a2 <;> dsimp only at a2
  · exact ⟨by omega, fun _ => by omega⟩
  · exact ⟨by omega, fun _ => by omega⟩
  · exact ⟨Place.nearest_small (by omega) a2, by rintro (c | c) <;> cases c⟩
  · exact ⟨Place.nearest_small (by omega) a2, by rintro (c | c) <;> cases c⟩

/-- All placed particles are in the band. -/
theorem placed_band {s : Species} (hs : s ∈ X.species) {n : Nat} (ha : Amount X i j s n) {ps : List (Part ℝ)} (hp : Placed X i j s n ps) :
    ∀ p ∈ ps, Place.Band (X.env.geom i j) (X.env.walls i j) p := by
  obtain ⟨d0, d1⟩ := ends_nonneg h hi hj hs
  obtain ⟨n1, n2⟩ := sizes h hi hj
  have G := geom_good h.chamber hi hj
  obtain ⟨s1, s2⟩ := amount_small h hi hj ha
  have m1 : X.mnzl < (X.env.geom i j).dr / 2 := by rw [geom_eq h.chamber]; exact h.mnzlR
  have m2 : X.mnzl < (X.env.geom i j).dz / 2 := by rw [geom_eq h.chamber]; exact h.mnzlZ
  unfold Placed at hp
  cases e : X.spatial <;> rw [e] at hp <;> dsimp only at hp
  · obtain ⟨ur, uz, hf, hp⟩ := hp
    obtain ⟨ur', uz', u1, u2, u3⟩ := Place.flat_unit (s2 (.inl e)) hf
    unfold Place.fill at hp
    rw [Place.random_congr u3] at hp
    exact Place.band_weight hp (Place.band_random h.mnzl0 G _ h.mnzl1 (by omega) (by omega) d0 d1 s.id n u1 u2)
  · exact Place.band_weight hp (Place.band_random h.mnzl0 G _ h.mnzl1 (by omega) (by omega) d0 d1 s.id n (h.ur i j s.id) (h.uz i j s.id))
  · obtain ⟨qs, c, hp⟩ := hp
    exact Place.band_weight hp (Place.band_centered h.mnzl0 G _ m1 m2 s.id s1 n1 n2 c)
  · obtain ⟨qs, c0, c, hp⟩ := hp
    refine Place.band_weight hp ?_
    by_cases k : n = 0
    · rw [c0 k]
      simp
    · exact Place.band_regular h.mnzl0 G _ (by omega) (by omega) s.id k (c k)

/-- All velocities are below the speed of light. -/
theorem speeds_slow {s : Species} (hs : s ∈ X.species) (hc : X.Cold s) {n m : Nat} {vs : List (Vec3 ℝ)} (hv : Speeds0 X i j s n m (vs.map some)) :
    ∀ v ∈ vs, v.length2 < X.env.c ^ 2 := by
  have G := h.good s.id
  have hT := (h.plasma s hs).2.2
  have cube : ∀ r ∈ (List.range m).map (X.rs i j s.id), Vel.InCube r := by
    intro r hr
    obtain ⟨k, _, rfl⟩ := List.mem_map.mp hr
    exact h.rs i j s.id k
  have inj : ∀ {a b : List (Vec3 ℝ)}, Res.ok (a.map some) = .ok (b.map some) → a = b := fun e =>
    List.map_injective_iff.mpr (Option.some_injective _) (Res.ok.inj e)
  unfold Speeds0 at hv
  unfold Setup.Cold at hc
  cases e : X.speedy <;> rw [e] at hv hc <;> dsimp only at hv hc
  · obtain ⟨es, e1, e2⟩ := hv
    have len := Vel.thermal_short _ G.mass.ne' e2
    have done : ∀ fs : List ℝ, es = fs.map some → (∀ e ∈ fs, 0 ≤ e ∧ Vel.ratio (X.cst s.id) e ^ 2 ≤ 2 * X.env.c ^ 2) →
        ∀ v ∈ vs, v.length2 < X.env.c ^ 2 := by
      rintro fs rfl hf
      obtain ⟨vs', g1, _, g3⟩ := Vel.C78_thermal_partial G fs hf _ cube (by simpa using len)
      obtain rfl := inj (g1.symm.trans e2)
      exact g3
    rcases hc with ⟨c1, c2⟩ | ⟨c1, c2⟩
    · unfold Vel.sample at e1
      rw [if_pos c1] at e1
      obtain ⟨fs, f1, f2⟩ := Res.bind_ok (Option.some.inj e1)
      obtain ⟨_, q⟩ := Vel.classical_ok hT (by
        intro u hu
        obtain ⟨k, _, rfl⟩ := List.mem_map.mp hu
        exact h.us i j s.id k) f1
      refine done fs (Res.ok.inj f2).symm fun e he => ?_
      obtain ⟨q1, q2⟩ := q e he
      refine ⟨q1, le_trans ?_ c2⟩
      have : Vel.ratio (X.cst s.id) e ≤ Vel.ratio (X.cst s.id) (21 * s.temperature) := by
        have := G.mass; have := G.q; have := G.c
        unfold Vel.ratio
        gcongr
      have := Vel.ratio_nonneg G q1
      gcongr
    · obtain ⟨fs, f1, _, f3⟩ := Vel.C80_relativistic_partial c1 n _ _ (fun p hp => (c2 i j hi hj p hp).1) e1
      refine done fs (Res.ok.inj f1) fun e he => ?_
      obtain ⟨_, p, hp, A, _⟩ := f3 e he
      obtain ⟨_, q1, q2⟩ := c2 i j hi hj p hp
      rw [A]
      exact ⟨by linarith, q2⟩
  · obtain ⟨vs', g1, _, g3⟩ := Vel.C78_rectangular_partial G hT hc _ cube
    obtain rfl := inj (g1.symm.trans hv)
    exact g3
  · obtain ⟨v', g1, g2⟩ := Vel.C78_eigen_partial G hT (ne_of_lt hc) m
    rw [show List.replicate m (some v') = (List.replicate m v').map some by simp] at g1
    obtain rfl := inj (g1.symm.trans hv)
    intro v hv
    rw [List.eq_of_mem_replicate hv]
    exact g2.mpr hc

/-- A placed particle with its cell numbers and a velocity is near its domain. -/
theorem band_near {p q : Part ℝ} (b : Place.Band (X.env.geom i j) (X.env.walls i j) p) (e : Part.bindCell (X.env.geom i j) p = .ok q) {v : Vec3 ℝ}
    (hv : v.length2 < X.env.c ^ 2) : Near X.env i j (setVel q v) := by
  have C := h.chamber
  have dr : 0 < X.env.p.dr := C.good.geo.dr
  have dz : 0 < X.env.p.dz := C.good.geo.dz
  have hgt1 := low_hgt C C.div.r1 C.div.r2 i
  have hgt2 := low_hgt C C.div.z1 C.div.z2 j
  obtain ⟨⟨r1, r2, r3, r4, r5, r6⟩, z1, z2, z3, z4, z5, z6⟩ := C.div.bounds hi hj
  have gr : X.env.p.nr < 2 ^ 31 := C.div.r3
  have gz : X.env.p.nz < 2 ^ 31 := C.div.z3
  obtain ⟨b1, b2, b3, b4, b5⟩ := b
  rw [geom_eq C, walls_eq C] at b2 b4
  rw [geom_eq C] at b1 b3
  dsimp only at b1 b2 b3 b4
  have key : ∀ {d x : ℝ} {lo hg n : Nat} (k : Prop) [Decidable k], 0 < d → (lo + 1 / 2) * d ≤ x → x ≤ (lo + hg + (if decide k = true then -1 / 2 else 1 / 2)) * d →
      (k → lo + hg = n) → (¬ k → lo + hg + 2 ≤ n) → n < 2 ^ 31 →
      lo * d ≤ x ∧ x ≤ ((lo + hg : Nat) + 1 / 2) * d ∧ d / 2 ≤ x ∧ x ≤ n * d - d / 2 ∧ x < 2 ^ 31 * d := by
    intro d x lo hg n k _ hd h1 h2 e1 e2 e3
    have l0 : (0 : ℝ) ≤ lo := Nat.cast_nonneg lo
    have e3' : (n : ℝ) + 1 ≤ 2 ^ 31 := by exact_mod_cast e3
    push_cast
    by_cases kk : k
    · rw [decide_eq_true kk] at h2
      simp only [if_true] at h2
      have : (lo : ℝ) + hg = n := by exact_mod_cast e1 kk
      refine ⟨by nlinarith, by nlinarith, by nlinarith, by nlinarith, by nlinarith⟩
    · rw [decide_eq_false kk] at h2
      simp only [Bool.false_eq_true, if_false] at h2
      have : (lo : ℝ) + hg + 2 ≤ n := by exact_mod_cast e2 kk
      refine ⟨by nlinarith, by nlinarith, by nlinarith, by nlinarith, by nlinarith⟩
  obtain ⟨p1, p2, p3, p4, p5⟩ := key _ dr b1 b2 r5 r6 gr
  obtain ⟨q1, q2, q3, q4, q5⟩ := key _ dz b3 b4 z5 z6 gz
  rw [hgt1] at p2
  rw [hgt2] at q2
  obtain ⟨q', f1, f2, f3, f4, f5, f6⟩ := Part.C35_bind_partial (g := X.env.geom i j) (by rw [geom_eq C]; exact dr) (by rw [geom_eq C]; exact dz) p
    (by linarith) (by linarith) (by rw [geom_eq C]; exact p5) (by rw [geom_eq C]; exact q5)
  obtain rfl := Res.ok.inj (f1.symm.trans e)
  rw [geom_eq C] at f3 f4 f5 f6
  dsimp only at f3 f4 f5 f6
  have pr : q'.posR = p.posR := by rw [f2]
  have pz : q'.posZ = p.posZ := by rw [f2]
  have pp : q'.posPhi = p.posPhi := by rw [f2]
  refine ⟨pp.trans b5, ?_, ?_, ?_, ?_, ?_, ?_, ?_, ?_, hv, ?_, ?_⟩
  · show _ ≤ q'.posR
    rwa [pr]
  · show q'.posR ≤ _
    rwa [pr]
  · show _ ≤ q'.posZ
    rwa [pz]
  · show q'.posZ ≤ _
    rwa [pz]
  · show _ ≤ q'.posR
    rwa [pr]
  · show q'.posR ≤ _
    rwa [pr]
  · show _ ≤ q'.posZ
    rwa [pz]
  · show q'.posZ ≤ _
    rwa [pz]
  · symm
    rw [Int.floor_eq_iff, le_div_iff₀ dr, div_lt_iff₀ dr]
    exact ⟨by exact_mod_cast f3, by exact_mod_cast f4⟩
  · symm
    rw [Int.floor_eq_iff, le_div_iff₀ dz, div_lt_iff₀ dz]
    exact ⟨by exact_mod_cast f5, by exact_mod_cast f6⟩

/-- All particles that `distribute` makes are near their domain. -/
theorem distributed_near {s : Species} (hs : s ∈ X.species) (hc : X.Cold s) {out : List (Part ℝ)} (hd : Distributed X i j s out) :
    ∀ a ∈ out, Near X.env i j a := by
  obtain ⟨n, ps, qs, vs, h1, h2, h3, h4, h5, rfl⟩ := hd
  have b := placed_band h hi hj hs h1 h2
  have v := speeds_slow h hi hj hs hc h4
  clear h4 h2
  intro a ha
  induction h3 generalizing vs with
  | nil => simp at ha
  | @cons p q ps qs e _ ih =>
    cases vs with
    | nil => simp at h5
    | cons u vs =>
      rw [List.zipWith_cons_cons] at ha
      rcases List.mem_cons.mp ha with rfl | ha
      · exact band_near h hi hj (b p List.mem_cons_self) e (v u List.mem_cons_self)
      · exact ih vs (by simpa using h5) (fun x hx => b x (List.mem_cons_of_mem _ hx)) (fun x hx => v x (List.mem_cons_of_mem _ hx)) ha

omit hi hj in
/-- A new solver has no fields and no currents. -/
theorem solver_zero {m : Mem ℝ} (e : newSolver X i j = .ok m) (c : Comp) (hc : c ≠ .eps) (hs : c ≠ .sig) (x y : Int) : m c x y = 0 := by
  unfold newSolver at e
  cases l : X.layers with
  | none =>
    rw [l] at e
    obtain rfl := Res.ok.inj e
    exact if_neg hc
  | some q =>
    rw [l] at e
    dsimp only at e
    unfold setPml at e
    obtain ⟨m1, a1, e⟩ := Res.bind_ok e
    obtain ⟨m2, a2, a3⟩ := Res.bind_ok e
    have step : ∀ {f : Nat × Nat → ℝ} {u u' : Mem ℝ}, pmlLoop (domPar X.env.p X.env.domR X.env.domZ i j) f u = .ok u' → u' c x y = u c x y := by
      intro f u u' ee
      obtain ⟨w, w1, w2, _⟩ := pmlLoop_eq (domPar X.env.p X.env.domR X.env.domZ i j) f u
      obtain rfl := Res.ok.inj (w1.symm.trans ee)
      exact w2 c x y fun k => hs k.1
    rw [step a3, step a2, step a1]
    exact if_neg hc
end

theorem flat_by_id (sps : List Sp) (nd : (sps.map Sp.id).Nodup) :
    ((sps.map Sp.id).flatMap fun id => ((sps.filter (fun sp => sp.id = id)).flatMap Sp.parts).map (·.tag)) = sps.flatMap fun sp => sp.parts.map (·.tag) := by
  conv_rhs => rw [sp_rep sps nd]
  simp only [List.flatMap_map]

theorem start_once {X : Setup} (h : X.Sane) {S : State} (st : Starts X S) : (X.ids.flatMap (tagsOf X.env S.D)).Nodup := by
  have P : (X.ids.flatMap (tagsOf X.env S.D)).Perm
      ((idx2 0 X.env.domR 0 X.env.domZ).flatMap fun q => (S.D q.1 q.2).flatMap fun sp => sp.parts.map (·.tag)) := by
    unfold tagsOf
    refine (flatMap_swap _ _ _).trans (List.Perm.of_eq ?_)
    show (idx2 0 X.env.domR 0 X.env.domZ).flatMap _ = _
    refine List.flatMap_congr fun q _ => ?_
    have e := st.lists q.1 q.2
    have nd : ((S.D q.1 q.2).map Sp.id).Nodup := by rw [e]; exact h.ids
    rw [← flat_by_id _ nd, e]
    rfl
  exact P.nodup_iff.mpr st.fresh

/-- C110, the state in which the main loop begins: every domain has all species and beams, no particle is listed twice, every particle is inside
the chamber, in its domain or at most half a cell beyond it, slower than light, with the cell numbers of its position; there are no fields.
Full statement (false, see `C110_outside_fails`): every particle in its domain. -/
theorem C110_start_partial {X : Setup} (h : X.Sane) (hc : ∀ s ∈ X.species, X.Cold s) {S : State} (st : Starts X S) :
    Begun X.env X.ids S where
  species := st.lists
  once := start_once h st
  place := by
    intro i j hi hj sp hsp o ho
    have hid : sp.id ∈ X.species.map Species.id ++ X.beams := by
      rw [← st.lists i j]
      exact List.mem_map_of_mem hsp
    rcases List.mem_append.mp hid with k | k
    · obtain ⟨s, hs, e⟩ := List.mem_map.mp k
      exact distributed_near h hi hj hs (hc s hs) (st.plasma i j hi hj sp hsp s hs e) _ (List.mem_map_of_mem (f := fun o => S.heap o.tag) ho)
    · rw [st.beam i j hi hj sp hsp k] at ho
      simp at ho
  fields := by
    refine ⟨fun _ _ _ => 0, fun c hs i j x y hO => ?_⟩
    have z := solver_zero h (st.solver i j hO.1 hO.2.1) c (by rintro rfl; cases hs) (by rintro rfl; cases hs) x y
    exact ⟨fun _ => z, fun _ => z⟩

/-- C110, the first step: it exists, is unique, and leads to a sane state with the same particles. -/
theorem C110_first_partial {X : Setup} (h : X.Sane) (hc : ∀ s ∈ X.species, X.Cold s) (hk : Pusher.Relativistic X.env.kind) (hz : Scheme X.env.dist)
    {S : State} (st : Starts X S) (B : NoBorder X.env S) :
    ∃ S', (∀ T, Step X.env S T ↔ T = S') ∧ Alive X.env X.ids S' ∧ ∀ id ∈ X.ids, (tagsOf X.env S'.D id).Perm (tagsOf X.env S.D id) := by
  obtain ⟨S', a, b, c, _⟩ := step_near h.chamber hk (scheme_sound hz) h.ids (C110_start_partial h hc st) B
  exact ⟨S', a, b, c⟩

theorem run_cons {E : Env} {S S1 T : State} {n : Nat} (s : Step E S S1) (r : Run E S1 n T) : Run E S (n + 1) T := by
  induction r with
  | start => exact .step .start s
  | step _ b ih => exact .step ih b

/-- C110, any number of steps from the configuration on: as long as no particle arrives exactly at a border of its domain the run goes on in
exactly one way, it keeps all particles of all species, and from the first step on every particle is in its domain. -/
theorem C110_run_partial {X : Setup} (h : X.Sane) (hc : ∀ s ∈ X.species, X.Cold s) (hk : Pusher.Relativistic X.env.kind) (hz : Scheme X.env.dist)
    {S : State} (st : Starts X S) (n : Nat) (B : ∀ k T, k < n → Run X.env S k T → NoBorder X.env T) :
    ∃ S', (∀ T, Run X.env S n T ↔ T = S') ∧ (0 < n → Alive X.env X.ids S') ∧ ∀ id ∈ X.ids, (tagsOf X.env S'.D id).Perm (tagsOf X.env S.D id) := by
  cases n with
  | zero =>
    refine ⟨S, fun T => ⟨fun r => ?_, fun e => e ▸ .start⟩, fun k => absurd k (by omega), fun _ _ => .refl _⟩
    cases r
    rfl
  | succ n =>
    obtain ⟨S1, a1, b1, c1⟩ := C110_first_partial h hc hk hz st (B 0 S (by omega) .start)
    have s1 := (a1 S1).mpr rfl
    obtain ⟨S', a2, b2, c2⟩ := C97_run_partial h.chamber hk hz h.ids b1 n fun k T hkn r => B (k + 1) T (by omega) (run_cons s1 r)
    refine ⟨S', fun T => ⟨fun r => ?_, fun e => ?_⟩, fun _ => b2, fun id hid => (c2 id hid).trans (c1 id hid)⟩
    · obtain ⟨U, u1, u2⟩ := run_head r
      rw [(a1 U).mp u1] at u2
      exact (a2 T).mp u2
    · rw [e]
      exact run_cons s1 ((a2 S').mpr rfl)

/-- In an undivided chamber every particle is in its domain from the beginning. -/
theorem begun_single {E : Env} (h : Chamber E) (h1 : E.domR = 1) (h2 : E.domZ = 1) {ids : List Nat} {S : State} (b : Begun E ids S) : Alive E ids S := by
  refine ⟨b.species, b.once, fun i j hi hj sp hsp o ho => ?_, b.fields⟩
  obtain ⟨n1, n2, n3, n4, n5, n6, n7, n8, n9, n10, n11, n12⟩ := b.place i j hi hj sp hsp o ho
  have dr : 0 < E.p.dr := h.good.geo.dr
  have dz : 0 < E.p.dz := h.good.geo.dz
  obtain ⟨⟨_, _, _, _, r5, _⟩, _, _, _, _, z5, _⟩ := h.div.bounds hi hj
  have r5 : (low E.p.nr E.domR i : ℝ) + hgt E.p.nr E.domR i = E.p.nr := by exact_mod_cast r5 (by omega)
  have z5 : (low E.p.nz E.domZ j : ℝ) + hgt E.p.nz E.domZ j = E.p.nz := by exact_mod_cast z5 (by omega)
  refine ⟨n1, ?_, n6, n7, n8, n9, n10, n11, n12⟩
  rw [geom_eq h]
  refine ⟨n2, ?_, n4, ?_⟩
  · push_cast
    rw [r5]
    linarith
  · push_cast
    rw [z5]
    linarith

/-- C110 in an undivided chamber: a sane configuration of which light travels at most half a cell per step gives a run that never ends, in
exactly one way; in all its states no particle is lost or doubled, every particle is inside the chamber and slower than light. -/
theorem C110_single {X : Setup} (h : X.Sane) (hc : ∀ s ∈ X.species, X.Cold s) (hk : Pusher.Relativistic X.env.kind) (hz : Scheme X.env.dist)
    (h1 : X.env.domR = 1) (h2 : X.env.domZ = 1) (half : HalfCell X.env) {S : State} (st : Starts X S) (n : Nat) :
    ∃ S', (∀ T, Run X.env S n T ↔ T = S') ∧ Alive X.env X.ids S' ∧ ∀ id ∈ X.ids, (tagsOf X.env S'.D id).Perm (tagsOf X.env S.D id) :=
  C97_single h.chamber hk hz h1 h2 half h.ids (begun_single h.chamber h1 h2 (C110_start_partial h hc st)) n

/-- C110 with beams: the same configuration with beams. -/
theorem C110_beams {X : Setup} (h : X.Sane) (hc : ∀ s ∈ X.species, X.Cold s) {B : BEnv} (G : BeamChamber B) (e : B.env = X.env)
    (eb : X.beams = B.beams.map (·.id)) (hk : Pusher.Relativistic X.env.kind) (hz : Scheme X.env.dist)
    (h1 : X.env.domR = 1) (h2 : X.env.domZ = 1) (half : HalfCell X.env) {S : BState} (st : Starts X S.s) (n : Nat) :
    (∃ T, BRun B S n T) ∧ ∀ T, BRun B S n T →
      BAlive B X.ids T ∧ (∀ id ∈ X.species.map Species.id, (tagsOf X.env T.s.D id).Perm (tagsOf X.env S.s.D id)) ∧ ∃ T', BStep B (n * X.env.p.dt) T T' := by
  have A0 := begun_single h.chamber h1 h2 (C110_start_partial h hc st)
  have bm : ∀ id, B.isBeam id ↔ id ∈ X.beams := by
    intro id
    rw [eb, List.mem_map]
    rfl
  have A : BAlive B X.ids S := by
    refine ⟨fun b hb => ?_, A0.species, ?_, ?_, ?_, ?_⟩
    · exact List.mem_append_right _ ((bm _).mp ⟨b, hb, rfl⟩)
    · rw [e]; exact A0.once
    · rw [e]
      intro i j hi hj sp hsp _ o ho
      exact A0.place i j hi hj sp hsp o ho
    · rw [e]
      intro i j hi hj sp hsp hb o ho
      rw [st.beam i j hi hj sp hsp ((bm _).mp hb)] at ho
      simp at ho
    · rw [e]; exact A0.fields
  obtain ⟨r1, r2⟩ := C109_single G (by rw [e]; exact hk) (by rw [e]; exact hz) (by rw [e]; exact h1) (by rw [e]; exact h2) (by rw [e]; exact half) h.ids A n
  refine ⟨r1, fun T hT => ?_⟩
  obtain ⟨q1, q2, q3⟩ := r2 T hT
  rw [e] at q2 q3
  refine ⟨q1, fun id hid => q2 id (List.mem_append_left _ hid) fun k => ?_, q3⟩
  exact (List.nodup_append.mp h.ids).2.2 id hid id ((bm id).mp k) rfl

/-! ### Failures -/

/-- C110 fails for hot species: with the velocity distribution `eigen` and a temperature above `m c² / (2 √2)` the run ends in the first step,
if there is a particle of the species at all. -/
theorem C110_hot_fails {X : Setup} (h : X.Sane) (hs : X.speedy = .eigen) (hk : Pusher.Relativistic X.env.kind) {s : Species} (hm : s ∈ X.species)
    (hot : X.env.c ^ 2 < 2 * (2 * Vel.ratio (X.cst s.id) s.temperature) ^ 2) {S : State} (st : Starts X S) {i j : Nat} (hi : i < X.env.domR)
    (hj : j < X.env.domZ) {sp : Sp} (hsp : sp ∈ S.D i j) (hid : s.id = sp.id) (ne : sp.parts ≠ []) (T : State) : ¬ Step X.env S T := by
  rintro ⟨M1, _, mv, _⟩
  obtain ⟨o, l, el⟩ := List.exists_cons_of_ne_nil ne
  have ho : o ∈ sp.parts := by rw [el]; exact List.mem_cons_self
  obtain ⟨n, ps, qs, vs, d1, d2, d3, d4, d5, d6⟩ := st.plasma i j hi hj sp hsp s hm hid
  obtain ⟨v, g1, g2, _⟩ := Vel.C78_eigen_fails (h.good s.id) (h.plasma s hm).2.2 hot qs.length
  unfold Speeds0 at d4
  rw [hs] at d4
  dsimp only at d4
  rw [g1, show List.replicate qs.length (some v) = (List.replicate qs.length v).map some by simp] at d4
  have ev : List.replicate qs.length v = vs := List.map_injective_iff.mpr (Option.some_injective _) (Res.ok.inj d4)
  have fast : X.env.c ^ 2 < (vel (S.heap o.tag)).length2 := by
    have : S.heap o.tag ∈ List.zipWith setVel qs vs := by
      rw [← d6]
      exact List.mem_map_of_mem (f := fun o => S.heap o.tag) ho
    obtain ⟨k, hk', ek⟩ := List.mem_iff_getElem.mp this
    rw [List.getElem_zipWith] at ek
    subst ev
    rw [← ek, List.getElem_replicate]
    exact g2
  obtain ⟨junk, w, ew, _⟩ := mv i j hi hj sp hsp o ho
  unfold Pusher.push at ew
  obtain ⟨x, _, ew⟩ := Res.bind_ok ew
  obtain ⟨y, _, ew⟩ := Res.bind_ok ew
  rw [push_fast hk (P := X.env.pushPar sp.id) h.chamber.c fast] at ew
  cases ew

/-- C110, full statement fails in a divided chamber: with the default placement, domains above others and enough particles, there are
particles outside their domains when the main loop begins. -/
theorem C110_outside_fails {X : Setup} (h : X.Sane) (h2 : 2 ≤ X.env.domR) (fl : X.spatial = .flat) {k : Nat} (k0 : 1 ≤ k) (hk : 2 * X.env.p.nr ≤ 13 ^ k)
    {s : Species} (hs : s ∈ X.species) (big : 13 ^ k ≤ s.amount / X.env.domR / X.env.domZ) {S : State} (st : Starts X S) : ¬ Alive X.env X.ids S := by
  intro A
  have hE := h.chamber
  have hj : 0 < X.env.domZ := by have := hE.div.z1; omega
  have hi : 0 < X.env.domR := by omega
  have wl : (X.env.walls 0 0).r1 = false := by
    rw [walls_eq hE]
    exact decide_eq_false (by omega)
  have G := geom_good hE hi hj
  obtain ⟨⟨r1, r2, _⟩, _⟩ := hE.div.bounds hi hj
  have n2 : 1 ≤ (X.env.geom 0 0).nr := by
    rw [geom_eq hE]
    exact le_trans (by norm_num) r1
  have hk : 2 * (X.env.geom 0 0).nr ≤ 13 ^ k := by
    refine le_trans ?_ hk
    rw [geom_eq hE]
    dsimp only
    omega
  have hid : s.id ∈ (S.D 0 0).map Sp.id := by
    rw [st.lists]
    exact List.mem_append_left _ (List.mem_map_of_mem hs)
  obtain ⟨sp, hsp, esp⟩ := List.mem_map.mp hid
  obtain ⟨n, ps, qs, vs, ⟨⟨a0, a1⟩, a2⟩, d2, d3, d4, d5, d6⟩ := st.plasma 0 0 hi hj sp hsp s hs esp.symm
  unfold Placed at d2
  rw [fl] at a2 d2
  dsimp only at a2 d2
  obtain ⟨ur, uz, hf, d2⟩ := d2
  have hn : 13 ^ k ≤ n := by
    rw [a2]
    exact Nat.le_floor (by exact_mod_cast big)
  obtain ⟨p, hp, out, _⟩ := Place.flat_outside G (X.env.walls 0 0) wl n2 (leftOf X 0 0 s) (rightOf X 0 0 s) s.id hk k0 n hn ur uz hf (mnzl := X.mnzl)
  -- the same particle with its weight, its cell numbers and its velocity
  obtain ⟨l, hl, el⟩ := List.mem_iff_getElem.mp hp
  unfold Place.fill Place.setWeight at d2
  split_ifs at d2 with c1 c2
  · rw [List.isEmpty_iff] at c1
    rw [c1] at hp
    simp at hp
  · have e2 := Res.ok.inj d2
    have lp : l < ps.length := by rw [← e2, List.length_map]; exact hl
    have lq : l < qs.length := by rw [← d3.length_eq]; exact lp
    have pe : ps[l].posR = p.posR := by
      subst e2
      rw [List.getElem_map, el]
    have qe : qs[l].posR = ps[l].posR := by
      have := List.Forall₂.get d3 lp lq
      simp only [List.get_eq_getElem] at this
      unfold Part.bindCell at this
      obtain ⟨_, _, this⟩ := Res.bind_ok this
      obtain ⟨_, _, this⟩ := Res.bind_ok this
      rw [← Res.ok.inj this]
    have lo : l < (sp.parts.map fun o => S.heap o.tag).length := by
      rw [d6, List.length_zipWith]
      omega
    have oe : (sp.parts.map fun o => S.heap o.tag)[l].posR = qs[l].posR := by
      simp only [d6, List.getElem_zipWith]
      rfl
    rw [List.length_map] at lo
    have pl := A.place 0 0 hi hj sp hsp sp.parts[l] (List.getElem_mem lo)
    rw [List.getElem_map] at oe
    have := pl.dom.rhi
    rw [oe, qe, pe] at this
    linarith

/-! ### A start exists -/

section
variable {X : Setup} (h : X.Sane) {i j : Nat} (hi : i < X.env.domR) (hj : j < X.env.domZ)
include h hi hj

theorem amount_exists {s : Species} (hs : s ∈ X.species) (hd : X.Drawable s) : ∃ n, Amount X i j s n := by
  obtain ⟨d1, d2, d3, _⟩ := hd
  have a0 : 0 ≤ s.amount / X.env.domR / X.env.domZ := by positivity
  have f : ⌊s.amount / X.env.domR / X.env.domZ⌋₊ < 2 ^ 31 := by
    rw [Nat.floor_lt a0]
    exact_mod_cast d2
  obtain ⟨n1, n2⟩ := sizes h hi hj
  obtain ⟨⟨_, r2, _⟩, _, z2, _⟩ := h.chamber.div.bounds hi hj
  have le : (X.env.geom i j).nr * (X.env.geom i j).nz ≤ 2 ^ 31 := by
    refine le_trans (Nat.mul_le_mul ?_ ?_) d3 <;> rw [geom_eq h.chamber] <;> dsimp only <;> omega
  have one : 1 ≤ (X.env.geom i j).nr * (X.env.geom i j).nz := by nlinarith
  obtain ⟨m, hm, _⟩ := Place.C32_nearest (K := ℝ) (number := ⌊s.amount / X.env.domR / X.env.domZ⌋₊) one (by omega)
  push_cast at hm
  unfold Amount
  cases X.spatial
  · exact ⟨_, ⟨a0, d2⟩, rfl⟩
  · exact ⟨_, ⟨a0, d2⟩, rfl⟩
  · exact ⟨m, ⟨a0, d2⟩, hm⟩
  · exact ⟨m, ⟨a0, d2⟩, hm⟩

theorem weigh {d0 d1 : ℝ} {n : Nat} {qs : List (Part ℝ)} (hn : qs.length ≤ n) (b : ∀ q ∈ qs, Place.Band (X.env.geom i j) (X.env.walls i j) q) :
    ∃ ps, Place.setWeight X.env.e.pi (X.env.geom i j) (X.env.walls i j) (Place.whole (X.env.geom i j)) d0 d1 n qs = .ok ps := by
  by_cases k : qs = []
  · rw [k]
    exact ⟨[], rfl⟩
  · have G := geom_good h.chamber hi hj
    have l : 0 < qs.length := List.length_pos_iff.mpr k
    obtain ⟨ps, e, _⟩ := Place.sum_weights h.chamber.good.pi G.dr G.dz (X.env.walls i j) (Place.whole (X.env.geom i j)) d0 d1 (amount := n) (by omega) k
      fun q hq => by
        have := (b q hq).r1
        have := G.dr
        have : (0 : ℝ) ≤ (X.env.geom i j).r0 := Nat.cast_nonneg _
        nlinarith
    exact ⟨ps, e⟩

theorem placed_exists {s : Species} (hs : s ∈ X.species) {n : Nat} (ha : Amount X i j s n) : ∃ ps, Placed X i j s n ps ∧ ps.length ≤ n := by
  obtain ⟨d0, d1⟩ := ends_nonneg h hi hj hs
  obtain ⟨n1, n2⟩ := sizes h hi hj
  have G := geom_good h.chamber hi hj
  have dr := G.dr
  have dz := G.dz
  obtain ⟨s1, s2⟩ := amount_small h hi hj ha
  have m1 : X.mnzl < (X.env.geom i j).dr / 2 := by rw [geom_eq h.chamber]; exact h.mnzlR
  have m2 : X.mnzl < (X.env.geom i j).dz / 2 := by rw [geom_eq h.chamber]; exact h.mnzlZ
  unfold Placed
  cases e : X.spatial <;> dsimp only
  · obtain ⟨ur, uz, hf, u1, u2⟩ := Place.flat_numbers n (s2 (.inl e))
    have len : (Place.random s.id X.mnzl (X.env.geom i j) (X.env.walls i j) (Place.whole (X.env.geom i j)) (leftOf X i j s) (rightOf X i j s) n ur uz).length = n := by
      simp [Place.random]
    obtain ⟨ps, q⟩ := weigh h hi hj (d0 := leftOf X i j s) (d1 := rightOf X i j s) len.le
      (Place.band_random h.mnzl0 G _ h.mnzl1 (by omega) (by omega) d0 d1 s.id n u1 u2)
    exact ⟨ps, ⟨ur, uz, hf, q⟩, by rw [(Place.weight_only q).1, len]⟩
  · have len : (Place.random s.id X.mnzl (X.env.geom i j) (X.env.walls i j) (Place.whole (X.env.geom i j)) (leftOf X i j s) (rightOf X i j s) n
        (X.ur i j s.id) (X.uz i j s.id)).length = n := by
      simp [Place.random]
    obtain ⟨ps, q⟩ := weigh h hi hj (d0 := leftOf X i j s) (d1 := rightOf X i j s) len.le
      (Place.band_random h.mnzl0 G _ h.mnzl1 (by omega) (by omega) d0 d1 s.id n (h.ur i j s.id) (h.uz i j s.id))
    exact ⟨ps, q, by rw [(Place.weight_only q).1, len]⟩
  · obtain ⟨qs, c, len, _⟩ := Place.C32_centered_partial h.mnzl0.le G m1 m2 (X.env.walls i j) s.id n s1 n1 n2
    have len : qs.length ≤ n := by
      rw [len]
      exact Nat.mul_div_le _ _
    obtain ⟨ps, q⟩ := weigh h hi hj (d0 := leftOf X i j s) (d1 := rightOf X i j s) len (Place.band_centered h.mnzl0 G _ m1 m2 s.id s1 n1 n2 c)
    exact ⟨ps, ⟨qs, c, q⟩, by rw [(Place.weight_only q).1]; exact len⟩
  · by_cases k : n = 0
    · exact ⟨[], ⟨[], fun _ => rfl, fun c => absurd k c, rfl⟩, by simp⟩
    · have gr := G.nr
      have gz := G.nz
      have a1 : (0 : ℝ) < (X.env.geom i j).nr := by exact_mod_cast (by omega : 0 < (X.env.geom i j).nr)
      have a2 : (0 : ℝ) < (X.env.geom i j).nz := by exact_mod_cast (by omega : 0 < (X.env.geom i j).nz)
      have a3 : (0 : ℝ) < n := by exact_mod_cast (by omega : 0 < n)
      obtain ⟨qs, c, _⟩ : ∃ qs, Place.RegularPlacement s.id X.mnzl (X.env.geom i j) (X.env.walls i j) (Place.whole (X.env.geom i j)) n qs ∧ True := by
        unfold Place.RegularPlacement
        dsimp only
        rw [Place.whole_sizes (g := X.env.geom i j) (by omega), Place.whole_sizes_r (g := X.env.geom i j) (by omega)]
        obtain ⟨qs, c, _⟩ := Place.C32_regular_partial h.mnzl0 (g := X.env.geom i j) (X.env.walls i j) (Place.whole (X.env.geom i j)) s.id
          (ri := (X.env.geom i j).nr * (X.env.geom i j).dr / Real.sqrt (n * ((X.env.geom i j).nr * (X.env.geom i j).dr) / ((X.env.geom i j).nz * (X.env.geom i j).dz)))
          (zi := (X.env.geom i j).nz * (X.env.geom i j).dz / Real.sqrt (n * ((X.env.geom i j).nz * (X.env.geom i j).dz) / ((X.env.geom i j).nr * (X.env.geom i j).dr)))
          (by positivity) (by positivity)
        exact ⟨qs, c, trivial⟩
      have len := Place.regular_count h.mnzl0 G (X.env.walls i j) (by omega) (by omega) s.id k c
      obtain ⟨ps, q⟩ := weigh h hi hj (d0 := leftOf X i j s) (d1 := rightOf X i j s) len (Place.band_regular h.mnzl0 G _ (by omega) (by omega) s.id k c)
      exact ⟨ps, ⟨qs, fun c => absurd c k, fun _ => c, q⟩, by rw [(Place.weight_only q).1]; exact len⟩

theorem speeds_exist {s : Species} (hs : s ∈ X.species) (hc : X.speedy = .eigen ∨ X.Cold s) (hd : X.Drawable s) {n m : Nat} (ha : Amount X i j s n) (hm : m ≤ n) :
    ∃ vs : List (Vec3 ℝ), Speeds0 X i j s n m (vs.map some) ∧ vs.length = m := by
  have G := h.good s.id
  have hT := (h.plasma s hs).2.2
  have cube : ∀ r ∈ (List.range m).map (X.rs i j s.id), Vel.InCube r := by
    intro r hr
    obtain ⟨k, _, rfl⟩ := List.mem_map.mp hr
    exact h.rs i j s.id k
  obtain ⟨_, _, _, hd⟩ := hd
  unfold Speeds0
  cases e : X.speedy <;> rw [e] at hd <;> dsimp only at hd ⊢
  pick_goal 3
  · have : ∃ v, Vel.plainScale (X.cst s.id) s.temperature = some v := by
      unfold Vel.plainScale Vel.switch
      split_ifs with c1 c2
      · exact ⟨_, rfl⟩
      · exfalso
        have : 0 ≤ s.temperature * (2 * (X.cst s.id).q / (X.cst s.id).mass) := by
          have := G.q
          have := G.mass
          positivity
        linarith
      · exact ⟨_, rfl⟩
    obtain ⟨v, ev⟩ := this
    refine ⟨List.replicate m ⟨v, v, v⟩, ?_, by simp⟩
    unfold Vel.eigen
    rw [if_neg G.mass.ne', ev]
    simp
  all_goals
    have hc := hc.resolve_left (by rw [e]; exact (nomatch ·))
    unfold Setup.Cold at hc
    rw [e] at hc
    dsimp only at hc
  · have done : ∀ fs : List ℝ, Vel.sample n s.temperature (X.us i j s.id) (X.ws i j s.id) = some (.ok (fs.map some)) → fs.length = n →
        (∀ e ∈ fs, 0 ≤ e ∧ Vel.ratio (X.cst s.id) e ^ 2 ≤ 2 * X.env.c ^ 2) →
        ∃ vs : List (Vec3 ℝ), (∃ es, Vel.sample n s.temperature (X.us i j s.id) (X.ws i j s.id) = some (.ok es) ∧
          Vel.thermal (X.cst s.id) es ((List.range m).map (X.rs i j s.id)) = .ok (vs.map some)) ∧ vs.length = m := by
      intro fs e1 e2 e3
      obtain ⟨vs, g1, g2, _⟩ := Vel.C78_thermal_partial G fs e3 _ cube (by simpa [e2] using hm)
      exact ⟨vs, ⟨_, e1, g1⟩, by simpa using g2⟩
    rcases hc with ⟨c1, c2⟩ | ⟨c1, c2⟩
    · rcases hd with ⟨_, d⟩ | ⟨d, _⟩
      · obtain ⟨fs, f1, f2, f3⟩ := Vel.C80_classical_partial hT c1 n (X.us i j s.id) (X.ws i j s.id) fun k _ =>
          ⟨(h.us i j s.id k).1, (h.us i j s.id k).2, d i j k⟩
        refine done fs f1 f2 fun e he => ?_
        obtain ⟨q1, q2⟩ := f3 e he
        refine ⟨q1, le_trans ?_ c2⟩
        have : Vel.ratio (X.cst s.id) e ≤ Vel.ratio (X.cst s.id) (21 * s.temperature) := by
          have := G.mass; have := G.q; have := G.c
          unfold Vel.ratio
          gcongr
        have := Vel.ratio_nonneg G q1
        gcongr
      · exact absurd c1 (not_lt.mpr d)
    · rcases hd with ⟨d, _⟩ | ⟨_, d⟩
      · exact absurd d (not_lt.mpr c1)
      · obtain ⟨r, er⟩ := d i j n ha
        obtain ⟨fs, f1, f2, f3⟩ := Vel.C80_relativistic_partial c1 n _ _ (fun p hp => (c2 i j hi hj p hp).1) er
        rw [f1] at er
        refine done fs er f2 fun e he => ?_
        obtain ⟨_, p, hp, A, _⟩ := f3 e he
        obtain ⟨_, q1, q2⟩ := c2 i j hi hj p hp
        rw [A]
        exact ⟨by linarith, q2⟩
  · obtain ⟨vs', g1, g2, _⟩ := Vel.C78_rectangular_partial G hT hc _ cube
    exact ⟨vs', g1, by simpa using g2⟩

theorem band_bind {p : Part ℝ} (b : Place.Band (X.env.geom i j) (X.env.walls i j) p) : ∃ q, Part.bindCell (X.env.geom i j) p = .ok q := by
  have C := h.chamber
  have dr : 0 < X.env.p.dr := C.good.geo.dr
  have dz : 0 < X.env.p.dz := C.good.geo.dz
  obtain ⟨⟨_, r2, _, _, _, r6⟩, _, z2, _, _, _, z6⟩ := C.div.bounds hi hj
  have gr : X.env.p.nr < 2 ^ 31 := C.div.r3
  have gz : X.env.p.nz < 2 ^ 31 := C.div.z3
  obtain ⟨b1, b2, b3, b4, b5⟩ := b
  rw [geom_eq C, walls_eq C] at b2 b4
  rw [geom_eq C] at b1 b3
  dsimp only at b1 b2 b3 b4
  have key : ∀ {d x : ℝ} {lo hg n : Nat} (k : Prop) [Decidable k], 0 < d → (lo + 1 / 2) * d ≤ x → x ≤ (lo + hg + (if decide k = true then -1 / 2 else 1 / 2)) * d →
      lo + hg ≤ n → n < 2 ^ 31 → 0 ≤ x ∧ x < 2 ^ 31 * d := by
    intro d x lo hg n k _ hd h1 h2 e1 e3
    have l0 : (0 : ℝ) ≤ lo := Nat.cast_nonneg lo
    have e3' : (lo : ℝ) + hg + 1 ≤ 2 ^ 31 := by exact_mod_cast (by omega : lo + hg + 1 ≤ 2 ^ 31)
    refine ⟨by nlinarith, ?_⟩
    split_ifs at h2 <;> nlinarith
  obtain ⟨p1, p2⟩ := key _ dr b1 b2 r2 gr
  obtain ⟨q1, q2⟩ := key _ dz b3 b4 z2 gz
  obtain ⟨q', f1, _⟩ := Part.C35_bind_partial (g := X.env.geom i j) (by rw [geom_eq C]; exact dr) (by rw [geom_eq C]; exact dz) p p1 q1
    (by rw [geom_eq C]; exact p2) (by rw [geom_eq C]; exact q2)
  exact ⟨q', f1⟩

theorem distributed_exists {s : Species} (hs : s ∈ X.species) (hc : X.speedy = .eigen ∨ X.Cold s) (hd : X.Drawable s) : ∃ out, Distributed X i j s out := by
  obtain ⟨n, ha⟩ := amount_exists h hi hj hs hd
  obtain ⟨ps, hp, len⟩ := placed_exists h hi hj hs ha
  have b := placed_band h hi hj hs ha hp
  obtain ⟨qs, hq⟩ : ∃ qs, List.Forall₂ (fun p q => Part.bindCell (X.env.geom i j) p = .ok q) ps qs := by
    clear hp len
    induction ps with
    | nil => exact ⟨[], .nil⟩
    | cons p ps ih =>
      obtain ⟨qs, hq⟩ := ih fun q hq => b q (List.mem_cons_of_mem _ hq)
      obtain ⟨q, e⟩ := band_bind h hi hj (b p List.mem_cons_self)
      exact ⟨q :: qs, .cons e hq⟩
  obtain ⟨vs, v1, v2⟩ := speeds_exist h hi hj hs hc hd ha (m := qs.length) (by rw [← hq.length_eq]; exact len)
  exact ⟨_, n, ps, qs, vs, ha, hp, hq, v1, v2, rfl⟩

omit hi hj in
theorem solver_exists : ∃ m, newSolver X i j = .ok m := by
  unfold newSolver
  cases X.layers with
  | none => exact ⟨_, rfl⟩
  | some l =>
    dsimp only
    unfold setPml
    obtain ⟨m1, e1, _⟩ := pmlLoop_eq (domPar X.env.p X.env.domR X.env.domZ i j)
      (fun c => sigOuter (domPar X.env.p X.env.domR X.env.domZ i j) (layersOf X.env l i j) c.1) (fun c _ _ => if c = .eps then X.eps0 else 0)
    obtain ⟨m2, e2, _⟩ := pmlLoop_eq (domPar X.env.p X.env.domR X.env.domZ i j)
      (fun c => sigLeft (domPar X.env.p X.env.domR X.env.domZ i j) (layersOf X.env l i j) c.2) m1
    obtain ⟨m3, e3, _⟩ := pmlLoop_eq (domPar X.env.p X.env.domR X.env.domZ i j)
      (fun c => sigRight (domPar X.env.p X.env.domR X.env.domZ i j) (layersOf X.env l i j) c.2) m2
    exact ⟨m3, by rw [e1, Res.ok_bind, e2, Res.ok_bind, e3]⟩
end

/-- Addresses for the particles: number `k` of species `id` in domain `(i, j)`. -/
def address (i j id k : Nat) : Nat := Nat.pair (Nat.pair i j) (Nat.pair id k)

theorem address_inj {i j id k i' j' id' k' : Nat} (e : address i j id k = address i' j' id' k') : i = i' ∧ j = j' ∧ id = id' ∧ k = k' := by
  unfold address at e
  obtain ⟨a, b⟩ := Nat.pair_eq_pair.mp e
  obtain ⟨a1, a2⟩ := Nat.pair_eq_pair.mp a
  obtain ⟨b1, b2⟩ := Nat.pair_eq_pair.mp b
  exact ⟨a1, a2, b1, b2⟩

/-- C110: a sane configuration whose numbers fit and whose sampling ends has a beginning (with the distribution `eigen` even if it is hot). -/
theorem C110_exists {X : Setup} (h : X.Sane) (hc : ∀ s ∈ X.species, X.speedy = .eigen ∨ X.Cold s) (hd : ∀ s ∈ X.species, X.Drawable s) : ∃ S, Starts X S := by
  classical
  have P : ∀ i j id, ∃ out, i < X.env.domR → j < X.env.domZ → ∀ s ∈ X.species, s.id = id → Distributed X i j s out := by
    intro i j id
    by_cases c : i < X.env.domR ∧ j < X.env.domZ ∧ ∃ s ∈ X.species, s.id = id
    · obtain ⟨hi, hj, s, hs, rfl⟩ := c
      obtain ⟨out, e⟩ := distributed_exists h hi hj hs (hc s hs) (hd s hs)
      refine ⟨out, fun _ _ s' hs' es => ?_⟩
      have nd : (X.species.map Species.id).Nodup := (List.nodup_append.mp h.ids).1
      rw [List.inj_on_of_nodup_map nd hs' hs es]
      exact e
    · exact ⟨[], fun hi hj s hs es => absurd ⟨hi, hj, s, hs, es⟩ c⟩
  choose out hout using P
  have Q : ∀ i j, ∃ m, newSolver X i j = .ok m := fun i j => solver_exists h
  choose M hM using Q
  let dflt : Part ℝ := Place.newPart 0 0 0
  let S : State := ⟨M, fun t => (out t.unpair.1.unpair.1 t.unpair.1.unpair.2 t.unpair.2.unpair.1)[t.unpair.2.unpair.2]?.getD dflt,
    fun i j => (X.species.map fun s => (⟨s.id, (List.range (out i j s.id).length).map fun k => ⟨0, 0, address i j s.id k⟩⟩ : Sp)) ++
      X.beams.map fun id => ⟨id, []⟩⟩
  have heap : ∀ i j id k, S.heap (address i j id k) = (out i j id)[k]?.getD dflt := by
    intro i j id k
    show (out _ _ _)[_]?.getD dflt = _
    unfold address
    simp only [Nat.unpair_pair]
  have listed : ∀ i j, ∀ sp ∈ S.D i j, (∃ s ∈ X.species, sp = ⟨s.id, (List.range (out i j s.id).length).map fun k => ⟨0, 0, address i j s.id k⟩⟩) ∨
      ∃ id ∈ X.beams, sp = ⟨id, []⟩ := by
    intro i j sp hsp
    rcases List.mem_append.mp hsp with k | k
    · obtain ⟨s, hs, rfl⟩ := List.mem_map.mp k
      exact .inl ⟨s, hs, rfl⟩
    · obtain ⟨id, hid, rfl⟩ := List.mem_map.mp k
      exact .inr ⟨id, hid, rfl⟩
  have apart : ∀ s ∈ X.species, s.id ∉ X.beams := fun s hs k =>
    (List.nodup_append.mp h.ids).2.2 s.id (List.mem_map_of_mem hs) s.id k rfl
  refine ⟨S, ?_, ?_, ?_, ?_, fun i j _ _ => hM i j⟩
  · intro i j
    show (List.map _ (_ ++ _)) = _
    rw [List.map_append, List.map_map, List.map_map]
    congr 1
    exact List.map_id' X.beams
  · intro i j hi hj sp hsp s hs es
    rcases listed i j sp hsp with ⟨s', hs', rfl⟩ | ⟨id, hid, rfl⟩
    · have e := hout i j s'.id hi hj s hs es
      convert e using 1
      show ((List.range (out i j s'.id).length).map fun k => (⟨0, 0, address i j s'.id k⟩ : Prt)).map (fun o => S.heap o.tag) = _
      rw [List.map_map]
      refine List.ext_getElem (by simp) fun k h1 h2 => ?_
      rw [List.getElem_map, List.getElem_range]
      show S.heap (address i j s'.id k) = _
      rw [heap, List.getElem?_eq_getElem h2]
      rfl
    · exact absurd (show s.id ∈ X.beams by rw [es]; exact hid) (apart s hs)
  · intro i j hi hj sp hsp hb
    rcases listed i j sp hsp with ⟨s', hs', rfl⟩ | ⟨id, hid, rfl⟩
    · exact absurd hb (apart s' hs')
    · rfl
  · have tag : ∀ i j, ∀ sp ∈ S.D i j, ∀ t ∈ sp.parts.map (·.tag), ∃ k, t = address i j sp.id k := by
      intro i j sp hsp t ht
      rcases listed i j sp hsp with ⟨s', hs', rfl⟩ | ⟨id, hid, rfl⟩
      · simp only [List.mem_map, List.map_map, List.mem_range, Function.comp] at ht
        obtain ⟨k, _, rfl⟩ := ht
        exact ⟨k, rfl⟩
      · simp at ht
    have ids : ∀ i j, ((S.D i j).map Sp.id).Nodup := by
      intro i j
      show (List.map _ (_ ++ _)).Nodup
      rw [List.map_append, List.map_map, List.map_map]
      have e : X.beams.map (Sp.id ∘ fun id => (⟨id, []⟩ : Sp)) = X.beams := List.map_id' X.beams
      rw [e]
      exact h.ids
    rw [List.nodup_flatMap]
    refine ⟨fun q _ => ?_, ?_⟩
    · rw [List.nodup_flatMap]
      refine ⟨fun sp hsp => ?_, ?_⟩
      · rcases listed q.1 q.2 sp hsp with ⟨s', hs', rfl⟩ | ⟨id, hid, rfl⟩
        · dsimp only
          rw [List.map_map]
          exact List.Nodup.map (fun a b e => (address_inj e).2.2.2) List.nodup_range
        · exact List.nodup_nil
      · have := List.pairwise_map.mp (ids q.1 q.2)
        refine this.imp_of_mem fun {a b} ha hb ne => ?_
        intro t ta tb
        obtain ⟨k, e1⟩ := tag _ _ a ha t ta
        obtain ⟨k', e2⟩ := tag _ _ b hb t tb
        exact ne (address_inj (e1.symm.trans e2)).2.2.1
    · have := nodup_idx2 0 X.env.domR 0 X.env.domZ
      refine List.Pairwise.imp_of_mem (fun {a b} ha hb ne => ?_) this
      intro t ta tb
      obtain ⟨sa, h1, h2⟩ := List.mem_flatMap.mp ta
      obtain ⟨sb, h3, h4⟩ := List.mem_flatMap.mp tb
      obtain ⟨k, e1⟩ := tag _ _ sa h1 t h2
      obtain ⟨k', e2⟩ := tag _ _ sb h3 t h4
      obtain ⟨u1, u2, _⟩ := address_inj (e1.symm.trans e2)
      exact ne (Prod.ext u1 u2)

/-! ### Concrete cases -/

/-- A chamber of 4 × 4 cells with `a` macroparticles of a warm plasma of density one to two, thermal velocities and an absorbing layer. -/
noncomputable def exSetup (E : Env) (a : ℝ) (sp : Spatial) (beams : List Nat) : Setup where
  env := E
  spatial := sp
  speedy := .thermal
  species := [⟨7, a, 1, 2, 1/100⟩]
  beams := beams
  layers := some ⟨1, 1, 1, 0, 1⟩
  eps0 := 1
  q := 1
  mnzl := 1/1000
  ur := fun _ _ _ _ => 1/2
  uz := fun _ _ _ _ => 1/3
  us := fun _ _ _ _ => Real.exp (-Real.exp 1)
  ws := fun _ _ _ => []
  rs := fun _ _ _ _ => (1, 1/2, -1)

theorem exSetup_sane {E : Env} (hE : Chamber E) (e : E = exEnv E.domR E.domZ 1) (a : ℝ) (sp : Spatial) {beams : List Nat} (hb : beams.Nodup) (h7 : 7 ∉ beams) :
    (exSetup E a sp beams).Sane where
  chamber := hE
  lim := by show 0 < E.lim; rw [e]; norm_num [exEnv]
  lim3 := by show 3 * E.lim < E.c; rw [e]; norm_num [exEnv]
  q := by norm_num [exSetup]
  mnzl0 := by norm_num [exSetup]
  mnzl1 := by norm_num [exSetup]
  mnzlR := by show 1/1000 < E.p.dr / 2; rw [e]; norm_num [exEnv]
  mnzlZ := by show 1/1000 < E.p.dz / 2; rw [e]; norm_num [exEnv]
  ids := by
    show (7 :: beams).Nodup
    exact List.nodup_cons.mpr ⟨h7, hb⟩
  plasma := by
    intro s hs
    obtain rfl := List.mem_singleton.mp hs
    norm_num
  ur := fun _ _ _ _ => by norm_num [exSetup]
  uz := fun _ _ _ _ => by norm_num [exSetup]
  us := fun _ _ _ _ => ⟨(Vel.ex_unit 1).1.le, (Vel.ex_unit 1).2⟩
  rs := fun _ _ _ _ => by norm_num [exSetup, Vel.InCube]

theorem exSetup_cold {E : Env} (e : E = exEnv E.domR E.domZ 1) (a : ℝ) (sp : Spatial) (beams : List Nat) :
    ∀ s ∈ (exSetup E a sp beams).species, (exSetup E a sp beams).Cold s := by
  intro s hs
  obtain rfl := List.mem_singleton.mp hs
  refine .inl ⟨by norm_num, ?_⟩
  show Vel.ratio ⟨E.c, E.lim, 1, E.mass 7⟩ (21 * (1/100)) ^ 2 ≤ 2 * E.c ^ 2
  rw [e]
  norm_num [Vel.ratio, exEnv]

theorem exSetup_drawable {E : Env} (e : E = exEnv E.domR E.domZ 1) {a : ℝ} (a0 : 0 ≤ a) (a1 : a / E.domR / E.domZ < 2 ^ 31) (sp : Spatial) (beams : List Nat) :
    ∀ s ∈ (exSetup E a sp beams).species, (exSetup E a sp beams).Drawable s := by
  intro s hs
  obtain rfl := List.mem_singleton.mp hs
  refine ⟨a0, a1, ?_, .inl ⟨by norm_num, fun _ _ _ => ?_⟩⟩
  · show E.p.nr * E.p.nz ≤ 2 ^ 31
    rw [e]
    norm_num [exEnv]
  · show Vel.lnln (Real.exp (-Real.exp 1)) ≠ 2
    rw [Vel.ex_lnln]
    norm_num

/-- The hypotheses of `C110_single`, in all four modes of placement: a chamber with 100 charged particles. -/
example (sp : Spatial) : (exSetup (exEnv 1 1 1) 100 sp []).Sane ∧ (∀ s ∈ (exSetup (exEnv 1 1 1) 100 sp []).species, (exSetup (exEnv 1 1 1) 100 sp []).Cold s) ∧
    HalfCell (exEnv 1 1 1) ∧ ∃ S, Starts (exSetup (exEnv 1 1 1) 100 sp []) S := by
  have s := exSetup_sane (exEnv_chamber ex_div1 1) rfl 100 sp (beams := []) List.nodup_nil (by simp)
  have c := exSetup_cold (E := exEnv 1 1 1) rfl 100 sp []
  exact ⟨s, c, by unfold HalfCell exEnv; norm_num, C110_exists s (fun x hx => .inr (c x hx)) (exSetup_drawable rfl (by norm_num) (by norm_num [exEnv]) sp [])⟩

/-- The hypotheses of `C110_beams`. -/
example : ∃ S, Starts (exSetup (exBEnv (1/2) 1 2).env 100 .flat [8]) S ∧ BeamChamber (exBEnv (1/2) 1 2) ∧ [8] = (exBEnv (1/2) 1 2).beams.map (·.id) ∧
    HalfCell (exBEnv (1/2) 1 2).env := by
  have G : BeamChamber (exBEnv (1/2) 1 2) := exB_chamber (by norm_num) (by norm_num) (by norm_num)
  have s := exSetup_sane (E := (exBEnv (1/2) 1 2).env) G.chamber rfl 100 .flat (beams := [8]) (List.nodup_singleton 8) (by decide)
  have c := exSetup_cold (E := (exBEnv (1/2) 1 2).env) rfl 100 .flat [8]
  obtain ⟨S, h⟩ := C110_exists s (fun x hx => .inr (c x hx)) (exSetup_drawable rfl (by norm_num) (by norm_num [exBEnv, exEnv]) .flat [8])
  exact ⟨S, h, G, rfl, exB_half _ _⟩

/-- C110 fails in a divided chamber: a concrete configuration. -/
example : ∃ S, Starts (exSetup (exEnv 2 2 1) 100 .flat []) S ∧ ¬ Alive (exEnv 2 2 1) [7] S := by
  have s := exSetup_sane (E := exEnv 2 2 1) (exEnv_chamber ex_div2 1) rfl 100 .flat (beams := []) List.nodup_nil (by simp)
  have c := exSetup_cold (E := exEnv 2 2 1) rfl 100 .flat []
  obtain ⟨S, h⟩ := C110_exists s (fun x hx => .inr (c x hx)) (exSetup_drawable rfl (by norm_num) (by norm_num [exEnv]) .flat [])
  exact ⟨S, h, C110_outside_fails s (le_refl 2) rfl (k := 1) (by norm_num) (by norm_num [exSetup, exEnv]) (List.mem_singleton.mpr rfl)
    (by norm_num [exSetup, exEnv]) h⟩

/-- C110 fails for hot species: a concrete configuration with a run that ends in the first step. -/
example : ∃ S, Starts { exSetup (exEnv 1 1 1) 100 .flat [] with speedy := .eigen, species := [⟨7, 100, 1, 2, 1⟩] } S ∧ ∀ T, ¬ Step (exEnv 1 1 1) S T := by
  have s0 := exSetup_sane (E := exEnv 1 1 1) (exEnv_chamber ex_div1 1) rfl 100 .flat (beams := []) List.nodup_nil (by simp)
  have s : Setup.Sane { exSetup (exEnv 1 1 1) 100 .flat [] with speedy := .eigen, species := [⟨7, 100, 1, 2, 1⟩] } :=
    ⟨s0.chamber, s0.lim, s0.lim3, s0.q, s0.mnzl0, s0.mnzl1, s0.mnzlR, s0.mnzlZ, List.nodup_singleton 7, fun x hx => by
      obtain rfl := List.mem_singleton.mp hx
      norm_num, s0.ur, s0.uz, s0.us, s0.rs⟩
  obtain ⟨S, h⟩ := C110_exists s (fun _ _ => .inl rfl) (fun x hx => by
    obtain rfl := List.mem_singleton.mp hx
    exact ⟨by norm_num, by norm_num [exSetup, exEnv], by norm_num [exSetup, exEnv], trivial⟩)
  refine ⟨S, h, ?_⟩
  have hm : (⟨7, 100, 1, 2, 1⟩ : Species) ∈ ([⟨7, 100, 1, 2, 1⟩] : List Species) := List.mem_singleton.mpr rfl
  have hid : 7 ∈ (S.D 0 0).map Sp.id := by
    rw [h.lists]
    exact List.mem_cons_self
  obtain ⟨sp, hsp, esp⟩ := List.mem_map.mp hid
  have hot : (1 : ℝ) ^ 2 < 2 * (2 * Vel.ratio ⟨1, 1/100, 1, 1⟩ 1) ^ 2 := by norm_num [Vel.ratio]
  refine C110_hot_fails s rfl (.inl rfl) hm hot h (i := 0) (j := 0) (by show 0 < 1; decide) (by show 0 < 1; decide) hsp esp.symm ?_
  intro e
  obtain ⟨n, ps, qs, vs, ⟨_, a2⟩, d2, d3, _, d5, d6⟩ := h.plasma 0 0 (by show 0 < 1; decide) (by show 0 < 1; decide) sp hsp _ hm esp.symm
  obtain ⟨ur, uz, _, d2⟩ := d2
  have n100 : n = 100 := by
    have : n = ⌊(100 : ℝ) / ((1 : Nat) : ℝ) / ((1 : Nat) : ℝ)⌋₊ := a2
    rw [this]
    norm_num
  have l := (Place.weight_only d2).1
  have l2 := d3.length_eq
  rw [e] at d6
  have l3 : (0 : Nat) = min qs.length vs.length := by
    have := congrArg List.length d6
    simpa using this
  have l4 : ps.length = 100 := by
    rw [l, ← n100]
    simp [Place.random]
  omega

end Pic
end Pico
