import Verif.Lemmas.Maps
import Mathlib.Tactic.LinearCombination

/-! # C59, C60, C61 — momentum, energy and temperature maps of a species -/

set_option linter.unusedSimpArgs false
set_option linter.unusedVariables false
set_option linter.unusedSectionVars false

namespace Pico
namespace Maps

/-! ### Specification -/

/-- Square of the speed. -/
def VP.v2 (p : VP) : ℝ := p.vr ^ 2 + p.vp ^ 2 + p.vz ^ 2

/-- Relativistic factor of a particle. -/
noncomputable def VP.gamma (c : ℝ) (p : VP) : ℝ := 1 / Real.sqrt (1 - p.v2 / c ^ 2)

/-- Part of the particle density at a cell that belongs to a particle (C13, C14). -/
noncomputable def share (q : Par) (g : Geom ℝ) (p : VP) (x y : Int) : ℝ := densityOf q.pi g ⟨p.r, p.z, p.w⟩ x y

/-- Particle density at a cell. -/
noncomputable def dens (q : Par) (g : Geom ℝ) (ps : List VP) (x y : Int) : ℝ := (ps.map fun p => share q g p x y).sum

/-- Mean of a quantity of the particles at a cell, `0` without particles. -/
noncomputable def mean (q : Par) (g : Geom ℝ) (ps : List VP) (f : VP → ℝ) (x y : Int) : ℝ :=
  if dens q g ps x y = 0 then 0 else (ps.map fun p => share q g p x y * f p).sum / dens q g ps x y

/-- Kinetic energy that belongs to the square of a momentum: classical up to `REL_LIMIT`, relativistic
above. -/
noncomputable def kin (q : Par) (p2 : ℝ) : ℝ :=
  if p2 > q.rl * q.rl * q.mass * q.mass then Real.sqrt (p2 * (q.c * q.c) + (q.mass * (q.c * q.c)) ^ 2) - q.mass * (q.c * q.c)
  else 1/2 * p2 / q.mass

/-- Sane constants. -/
structure Par.Good (q : Par) : Prop where
  pi : 0 < q.pi
  c : 0 < q.c
  rl : 0 < q.rl
  rlc : q.rl ≤ q.c
  mass : 0 < q.mass
  qe : 0 < q.qe

/-- All maps of the species are maps over the domain. -/
structure St.Over (g : Geom ℝ) (s : St) : Prop where
  density : g.MapOf s.density
  momAbs : g.MapOf s.momAbs
  momW : Map3 g s.momW
  mom : Map3 g s.mom
  energy : g.MapOf s.energy
  temperature : g.MapOf s.temperature

/-! ### Values -/

/-- The factor the code uses. -/
noncomputable def factor (q : Par) (p : VP) : ℝ := if p.v2 < q.rl * q.rl then p.gamma q.c else 1

theorem v2_nonneg (p : VP) : 0 ≤ p.v2 := by unfold VP.v2; positivity

theorem lorenz_slow {q : Par} (hq : q.Good) {p : VP} (h : p.v2 < q.rl * q.rl) :
    Rel.lorenzFactor q.c p.v2 = .ok (p.gamma q.c) := by
  have c := hq.c
  have hl : q.rl * q.rl ≤ q.c * q.c := mul_self_le_mul_self hq.rl.le hq.rlc
  have h' : p.v2 / (q.c * q.c) < 1 := by rw [div_lt_one (by positivity)]; linarith
  have sp : 0 < Real.sqrt (1 - p.v2 / (q.c * q.c)) := Real.sqrt_pos.mpr (by linarith)
  unfold Rel.lorenzFactor VP.gamma
  dsimp only
  rw [if_neg (by linarith), if_neg sp.ne', pow_two]

theorem pVec_value {q : Par} (hq : q.Good) (p : VP) :
    pVec q p = .ok (q.mass * p.w * p.vr * factor q p, q.mass * p.w * p.vp * factor q p, q.mass * p.w * p.vz * factor q p) := by
  unfold pVec factor
  dsimp only
  have : p.vr ^ 2 + p.vp ^ 2 + p.vz ^ 2 = p.v2 := rfl
  rw [this]
  by_cases h : p.v2 < q.rl * q.rl
  · rw [if_pos h, if_pos h, lorenz_slow hq h, Res.ok_bind]
  · rw [if_neg h, if_neg h]
    simp

theorem pAbs_value {q : Par} (hq : q.Good) (p : VP) :
    pAbs q p = .ok (q.mass * p.w * Real.sqrt p.v2 * factor q p) := by
  unfold pAbs factor
  dsimp only
  have : p.vr ^ 2 + p.vp ^ 2 + p.vz ^ 2 = p.v2 := rfl
  rw [this, Real.sq_sqrt (v2_nonneg p)]
  have rl := hq.rl
  have E : Real.sqrt p.v2 < q.rl ↔ p.v2 < q.rl * q.rl := by
    rw [Real.sqrt_lt' rl, pow_two]
  by_cases h : p.v2 < q.rl * q.rl
  · rw [if_pos h, if_pos (E.mpr h), lorenz_slow hq h, Res.ok_bind]
  · rw [if_neg h, if_neg (fun h' => h (E.mp h'))]
    simp

theorem sum_scale (q : Par) (g : Geom ℝ) (ps : List VP) (x y : Int) (f : VP → ℝ) (h : VP → ℝ)
    (e : ∀ p, h p = f p * p.w) :
    (ps.map fun p => densityOf q.pi g ⟨p.r, p.z, h p⟩ x y).sum = (ps.map fun p => share q g p x y * f p).sum := by
  congr 1
  apply List.map_congr_left
  intro p _
  rw [e, densityOf_scale]
  unfold share
  ring

theorem dens_eq (q : Par) (g : Geom ℝ) (ps : List VP) (x y : Int) :
    ((ps.map VP.wp).map fun p => densityOf q.pi g p x y).sum = dens q g ps x y := by
  unfold dens
  rw [List.map_map]
  rfl

theorem inside_nat {g : Geom ℝ} {m : Grid ℝ} (M : g.MapOf m) {x y : Nat} (hx : x < g.nr) (hy : y < g.nz) :
    m.Inside (x : Int) (y : Int) := by
  have := M.xs
  have := M.ys
  unfold Grid.Inside
  omega

/-- The momentum map of any set of particles, with the factor the code uses. -/
theorem momentum_value (q : Par) (hq : q.Good) (g : Geom ℝ) (G : g.Good) (s : St) (S : s.Over g) (ps : List VP)
    (C : ∀ p ∈ ps, g.Contains p.r p.z) :
    ∃ s', calcMomentum q g ps s = .ok s' ∧ s'.Over g ∧
      (∀ x y : Nat, x < g.nr → y < g.nz →
        s'.mom.r.get x y = .ok (mean q g ps (fun p => factor q p * q.mass * p.vr) x y) ∧
        s'.mom.phi.get x y = .ok (mean q g ps (fun p => factor q p * q.mass * p.vp) x y) ∧
        s'.mom.z.get x y = .ok (mean q g ps (fun p => factor q p * q.mass * p.vz) x y)) ∧
      Same3 s.mom s'.mom ∧
      ∀ x y : Int, s.mom.r.Inside x y → ¬ s.mom.r.Interior x y → s'.mom.r.get x y = .ok 0 := by
  obtain ⟨d, ed, sd, vd⟩ := density_value q.pi g G s.density S.density (ps.map VP.wp) (by
    intro p hp
    obtain ⟨p', h', rfl⟩ := List.mem_map.mp hp
    exact C p' h')
  obtain ⟨w, ew, sw, v1, v2, v3⟩ := momW_value q g G s.momW S.momW ps C _ (fun p _ => pVec_value hq p)
  obtain ⟨m1, b, e1, e2, sb, z1, z2, z3⟩ := clear3 s.mom S.mom
  have Mb : Map3 g b := ⟨S.mom.r.same sb.1, S.mom.phi.same sb.2.1, S.mom.z.same sb.2.2⟩
  -- the loop on the three components
  have gd : ∀ x y : Nat, x < g.nr → y < g.nz → d.get x y = .ok (dens q g ps x y) := fun x y hx hy => by
    rw [vd x y (inside_nat S.density hx hy), dens_eq]
  have g1 : ∀ x y : Nat, x < g.nr → y < g.nz → w.r.get x y =
      .ok ((ps.map fun p => share q g p x y * (factor q p * q.mass * p.vr)).sum) := fun x y hx hy => by
    rw [v1 x y (inside_nat S.momW.r hx hy), sum_scale q g ps x y _ _ (fun p => ?_)]
    dsimp only
    ring
  have g2 : ∀ x y : Nat, x < g.nr → y < g.nz → w.phi.get x y =
      .ok ((ps.map fun p => share q g p x y * (factor q p * q.mass * p.vp)).sum) := fun x y hx hy => by
    rw [v2 x y (inside_nat S.momW.phi hx hy), sum_scale q g ps x y _ _ (fun p => ?_)]
    dsimp only
    ring
  have g3 : ∀ x y : Nat, x < g.nr → y < g.nz → w.z.get x y =
      .ok ((ps.map fun p => share q g p x y * (factor q p * q.mass * p.vz)).sum) := fun x y hx hy => by
    rw [v3 x y (inside_nat S.momW.z hx hy), sum_scale q g ps x y _ _ (fun p => ?_)]
    dsimp only
    ring
  have key : ∀ (l : List (Nat × Nat)), (∀ p ∈ l, p.1 < g.nr ∧ p.2 < g.nz) → ∀ m : Grid3D ℝ, Map3 g m →
      ∃ m', loop (momentumCell d w) l m = .ok m' ∧ Same3 m m' ∧
        (∀ x y : Nat, x < g.nr → y < g.nz →
          ((x, y) ∈ l ∧ dens q g ps x y ≠ 0 →
            m'.r.get x y = .ok (mean q g ps (fun p => factor q p * q.mass * p.vr) x y) ∧
            m'.phi.get x y = .ok (mean q g ps (fun p => factor q p * q.mass * p.vp) x y) ∧
            m'.z.get x y = .ok (mean q g ps (fun p => factor q p * q.mass * p.vz) x y)) ∧
          (¬ ((x, y) ∈ l ∧ dens q g ps x y ≠ 0) →
            m'.r.get x y = m.r.get x y ∧ m'.phi.get x y = m.phi.get x y ∧ m'.z.get x y = m.z.get x y)) ∧
        (∀ x y : Int, m.r.Inside x y → ¬ m.r.Interior x y → m'.r.get x y = m.r.get x y) := by
    intro l
    induction l with
    | nil =>
      intro _ m Mm
      refine ⟨m, rfl, ⟨⟨rfl, rfl, rfl⟩, ⟨rfl, rfl, rfl⟩, ⟨rfl, rfl, rfl⟩⟩, ?_, fun _ _ _ _ => rfl⟩
      intro x y _ _
      exact ⟨fun h => absurd h.1 List.not_mem_nil, fun _ => ⟨rfl, rfl, rfl⟩⟩
    | cons a l ih =>
      intro hl m Mm
      obtain ⟨a1, a2⟩ := a
      obtain ⟨hx, hy⟩ := hl (a1, a2) List.mem_cons_self
      dsimp only at hx hy
      have hl' := fun p hp => hl p (List.mem_cons_of_mem _ hp)
      by_cases hn : dens q g ps a1 a2 = 0
      · have : momentumCell d w (a1, a2) m = .ok m := by
          unfold momentumCell
          dsimp only
          rw [gd a1 a2 hx hy, Res.ok_bind, if_neg (by simpa using hn)]
        obtain ⟨m', e, s', h1, h2⟩ := ih hl' m Mm
        refine ⟨m', by rw [loop_cons, this, Res.ok_bind, e], s', ?_, h2⟩
        intro x y hx' hy'
        obtain ⟨k1, k2⟩ := h1 x y hx' hy'
        refine ⟨fun h => k1 ⟨?_, h.2⟩, fun h => k2 (fun h' => h ⟨List.mem_cons_of_mem _ h'.1, h'.2⟩)⟩
        rcases List.mem_cons.mp h.1 with e | e
        · obtain ⟨rfl, rfl⟩ := Prod.mk.inj e
          exact absurd hn h.2
        · exact e
      · have setv : ∀ (b : Grid ℝ), g.MapOf b → ∀ v : ℝ, ∃ b', b.set a1 a2 v = .ok b' ∧ b.ChangedAt b' a1 a2 v :=
          fun b B v => Grid.C01_set b B.wf (a1 : Int) (a2 : Int) v (inside_nat B hx hy)
        obtain ⟨m1, f1, c1⟩ := setv m.r Mm.r ((ps.map fun p => share q g p a1 a2 * (factor q p * q.mass * p.vr)).sum / dens q g ps a1 a2)
        obtain ⟨m2, f2, c2⟩ := setv m.phi Mm.phi ((ps.map fun p => share q g p a1 a2 * (factor q p * q.mass * p.vp)).sum / dens q g ps a1 a2)
        obtain ⟨m3, f3, c3⟩ := setv m.z Mm.z ((ps.map fun p => share q g p a1 a2 * (factor q p * q.mass * p.vz)).sum / dens q g ps a1 a2)
        have : momentumCell d w (a1, a2) m = .ok ⟨m1, m2, m3⟩ := by
          unfold momentumCell
          dsimp only
          rw [gd a1 a2 hx hy, Res.ok_bind, if_pos hn, g1 a1 a2 hx hy, Res.ok_bind, f1, Res.ok_bind,
            g2 a1 a2 hx hy, Res.ok_bind, f2, Res.ok_bind, g3 a1 a2 hx hy, Res.ok_bind, f3, Res.ok_bind]
        obtain ⟨m', e, s', h1, h2⟩ := ih hl' ⟨m1, m2, m3⟩ ⟨Mm.r.same c1.1, Mm.phi.same c2.1, Mm.z.same c3.1⟩
        refine ⟨m', by rw [loop_cons, this, Res.ok_bind, e],
          ⟨c1.1.trans s'.1, c2.1.trans s'.2.1, c3.1.trans s'.2.2⟩, ?_, ?_⟩
        · intro x y hx' hy'
          obtain ⟨k1, k2⟩ := h1 x y hx' hy'
          by_cases hm : (x, y) ∈ l ∧ dens q g ps x y ≠ 0
          · refine ⟨fun _ => k1 hm, fun h => absurd ⟨List.mem_cons_of_mem _ hm.1, hm.2⟩ h⟩
          · obtain ⟨q1, q2, q3⟩ := k2 hm
            by_cases ha : x = a1 ∧ y = a2
            · obtain ⟨rfl, rfl⟩ := ha
              refine ⟨fun _ => ?_, fun h => absurd ⟨List.mem_cons_self, hn⟩ h⟩
              rw [q1, q2, q3]
              dsimp only
              rw [c1.2.1, c2.2.1, c3.2.1]
              unfold mean
              rw [if_neg hn, if_neg hn, if_neg hn]
              exact ⟨rfl, rfl, rfl⟩
            · refine ⟨fun h => ?_, fun _ => ?_⟩
              · rcases List.mem_cons.mp h.1 with e | e
                · exact absurd (Prod.mk.inj e) ha
                · exact absurd ⟨e, h.2⟩ hm
              · have ix : ∀ n : Nat, n < g.nr → IsInt (n : Int) := by
                  intro n hn
                  have := Mm.r.wf.1
                  have := Mm.r.xs
                  unfold Grid.xr at *
                  unfold IsInt
                  omega
                have iy : ∀ n : Nat, n < g.nz → IsInt (n : Int) := by
                  intro n hn
                  have := Mm.r.wf.2
                  have := Mm.r.ys
                  unfold Grid.yr at *
                  unfold IsInt
                  omega
                have ne : ¬ ((x : Int) = (a1 : Int) ∧ (y : Int) = (a2 : Int)) := by omega
                rw [q1, q2, q3]
                dsimp only
                rw [c1.2.2 x y (ix x hx') (iy y hy') ne, c2.2.2 x y (ix x hx') (iy y hy') ne,
                  c3.2.2 x y (ix x hx') (iy y hy') ne]
                exact ⟨rfl, rfl, rfl⟩
        · intro x y hin hno
          have hin' : m1.Inside x y := (c1.1.inside x y).mpr hin
          have hno' : ¬ m1.Interior x y := by
            unfold Grid.Interior at *
            rw [c1.1.2.1, c1.1.2.2]
            exact hno
          rw [h2 x y hin' hno']
          obtain ⟨i1, i2⟩ := Grid.inside_isInt Mm.r.wf hin
          refine c1.2.2 x y i1 i2 ?_
          rintro ⟨rfl, rfl⟩
          apply hno
          have := Mm.r.xs
          have := Mm.r.ys
          unfold Grid.Interior
          omega
  obtain ⟨m', e, s', h1, h2⟩ := key (idx2 0 g.nr 0 g.nz) (fun p hp => by rw [mem_idx2] at hp; omega) b Mb
  refine ⟨{ s with density := d, momW := w, mom := m' }, ?_, ?_, ?_, ⟨sb.1.trans s'.1, sb.2.1.trans s'.2.1, sb.2.2.trans s'.2.2⟩, ?_⟩
  · unfold calcMomentum
    rw [ed, Res.ok_bind, ew, Res.ok_bind, e1, Res.ok_bind, e2, Res.ok_bind, e, Res.ok_bind]
  · exact ⟨S.density.same sd, S.momAbs, ⟨S.momW.r.same sw.1, S.momW.phi.same sw.2.1, S.momW.z.same sw.2.2⟩,
      ⟨Mb.r.same s'.1, Mb.phi.same s'.2.1, Mb.z.same s'.2.2⟩, S.energy, S.temperature⟩
  · intro x y hx hy
    obtain ⟨k1, k2⟩ := h1 x y hx hy
    by_cases hn : dens q g ps x y = 0
    · obtain ⟨q1, q2, q3⟩ := k2 (fun h => h.2 hn)
      have M0 : ∀ f, mean q g ps f x y = 0 := fun f => by unfold mean; rw [if_pos hn]
      rw [M0, M0, M0]
      dsimp only
      rw [q1, q2, q3, z1 x y (inside_nat S.mom.r hx hy), z2 x y (inside_nat S.mom.phi hx hy),
        z3 x y (inside_nat S.mom.z hx hy)]
      exact ⟨rfl, rfl, rfl⟩
    · exact k1 ⟨by rw [mem_idx2]; omega, hn⟩
  · intro x y hin hno
    dsimp only
    have hno' : ¬ b.r.Interior x y := by
      unfold Grid.Interior at *
      rw [sb.1.2.1, sb.1.2.2]
      exact hno
    rw [h2 x y ((sb.1.inside x y).mpr hin) hno', z1 x y hin]

/-! ### C59 -/

/-- **C59 (partial).**  For particles below `REL_LIMIT` the momentum map holds, in every cell of the domain, the mean of
the relativistic momenta of the particles there, weighted with their share of the density, and `0` where there are no
particles, whatever the maps held before.  Missing: faster particles (`C59_fast_fails`), particles of the neighbour
domain (`C59_border_fails`). -/
theorem C59_partial (q : Par) (hq : q.Good) (g : Geom ℝ) (G : g.Good) (s : St) (S : s.Over g) (ps : List VP)
    (C : ∀ p ∈ ps, g.Contains p.r p.z) (hs : ∀ p ∈ ps, p.v2 < q.rl ^ 2) :
    ∃ s', calcMomentum q g ps s = .ok s' ∧
      ∀ x y : Nat, x < g.nr → y < g.nz →
        s'.mom.r.get x y = .ok (mean q g ps (fun p => p.gamma q.c * q.mass * p.vr) x y) ∧
        s'.mom.phi.get x y = .ok (mean q g ps (fun p => p.gamma q.c * q.mass * p.vp) x y) ∧
        s'.mom.z.get x y = .ok (mean q g ps (fun p => p.gamma q.c * q.mass * p.vz) x y) := by
  obtain ⟨s', e, _, h, _⟩ := momentum_value q hq g G s S ps C
  refine ⟨s', e, ?_⟩
  intro x y hx hy
  have F : ∀ f : VP → ℝ, mean q g ps (fun p => factor q p * q.mass * f p) x y =
      mean q g ps (fun p => p.gamma q.c * q.mass * f p) x y := by
    intro f
    unfold mean
    have : (ps.map fun p => share q g p x y * (factor q p * q.mass * f p)) =
        (ps.map fun p => share q g p x y * (p.gamma q.c * q.mass * f p)) := by
      apply List.map_congr_left
      intro p hp
      have : factor q p = p.gamma q.c := by
        unfold factor
        rw [if_pos (by have := hs p hp; rw [pow_two] at this; exact this)]
      rw [this]
    rw [this]
  obtain ⟨h1, h2, h3⟩ := h x y hx hy
  rw [h1, h2, h3, F, F, F]
  exact ⟨rfl, rfl, rfl⟩

/-- Where C59 fails: from `REL_LIMIT` on the relativistic factor is left out (the comparison is the wrong way round), so
the momentum of a fast particle is too small. -/
theorem C59_fast_fails (q : Par) (hq : q.Good) (g : Geom ℝ) (G : g.Good) (s : St) (S : s.Over g) (p : VP)
    (C : g.Contains p.r p.z) (hf : q.rl ^ 2 ≤ p.v2) (hc : p.v2 < q.c ^ 2) (hv : 0 < p.vz) (x y : Nat) (hx : x < g.nr)
    (hy : y < g.nz) (hn : share q g p x y ≠ 0) :
    ∃ s' m, calcMomentum q g [p] s = .ok s' ∧ s'.mom.z.get x y = .ok m ∧ m < p.gamma q.c * q.mass * p.vz := by
  obtain ⟨s', e, _, h, _⟩ := momentum_value q hq g G s S [p] (fun p' hp' => by rw [List.mem_singleton.mp hp']; exact C)
  refine ⟨s', _, e, (h x y hx hy).2.2, ?_⟩
  have d : dens q g [p] x y = share q g p x y := by unfold dens; simp
  have f1 : factor q p = 1 := by
    unfold factor
    rw [if_neg (by rw [pow_two] at hf; linarith)]
  unfold mean
  rw [d, if_neg hn, List.map_cons, List.map_nil, List.sum_singleton, mul_div_assoc, mul_comm, div_mul_cancel₀ _ hn]
  dsimp only
  rw [f1]
  have c := hq.c
  have rl := hq.rl
  have m := hq.mass
  have v0 : 0 < p.v2 := lt_of_lt_of_le (by positivity) hf
  have b1 : p.v2 / q.c ^ 2 < 1 := by rw [div_lt_one (by positivity)]; exact hc
  have b0 : 0 < p.v2 / q.c ^ 2 := by positivity
  have sq : Real.sqrt (1 - p.v2 / q.c ^ 2) < 1 := by
    rw [Real.sqrt_lt' one_pos]
    linarith
  have sq0 : 0 < Real.sqrt (1 - p.v2 / q.c ^ 2) := Real.sqrt_pos.mpr (by linarith)
  have gm : 1 < p.gamma q.c := by
    unfold VP.gamma
    rw [lt_div_iff₀ sq0]
    linarith
  have : q.mass * p.vz < p.gamma q.c * (q.mass * p.vz) := by
    have := mul_pos m hv
    nlinarith
  linarith

/-- Momentum maps of two neighbours after the exchange of their overlays: each keeps the means over its own
particles. -/
theorem border_value (q : Par) (hq : q.Good) (g g' : Geom ℝ) (G : g.Good) (G' : g'.Good) (hz : g'.nz = g.nz)
    (s t : St) (S : s.Over g) (T : t.Over g') (hos : t.mom.r.os = s.mom.r.os)
    (ho : s.mom.r.os ≤ g.nr ∧ s.mom.r.os ≤ g'.nr) (ps ps' : List VP)
    (C : ∀ p ∈ ps, g.Contains p.r p.z) (C' : ∀ p ∈ ps', g'.Contains p.r p.z) :
    ∃ s' t' a b, calcMomentum q g ps s = .ok s' ∧ calcMomentum q g' ps' t = .ok t' ∧
      s'.mom.r.overlayX t'.mom.r = .ok (a, b) ∧
      (∀ x y : Nat, x < g.nr → y < g.nz →
        a.get x y = .ok (mean q g ps (fun p => factor q p * q.mass * p.vr) x y)) ∧
      (∀ x y : Nat, x < g'.nr → y < g.nz →
        b.get x y = .ok (mean q g' ps' (fun p => factor q p * q.mass * p.vr) x y)) := by
  obtain ⟨s', e, S', h, sh, o⟩ := momentum_value q hq g G s S ps C
  obtain ⟨t', e', T', h', sh', o'⟩ := momentum_value q hq g' G' t T ps' C'
  have x1 := S'.mom.r.xs
  have y1 := S'.mom.r.ys
  have x2 := T'.mom.r.xs
  have y2 := T'.mom.r.ys
  have os1 := sh.1.1
  have os2 := sh'.1.1
  have sx := S.mom.r.xs
  have sy := S.mom.r.ys
  have tx := T.mom.r.xs
  have ty := T.mom.r.ys
  obtain ⟨a, b, f, _, _, k1, k2, k3⟩ := Grid.C03_overlay_x s'.mom.r t'.mom.r S'.mom.r.wf T'.mom.r.wf (by omega) (by omega)
  refine ⟨s', t', a, b, e, e', f, ?_, ?_⟩
  · intro x y hx hy
    obtain ⟨i1, i2⟩ := Grid.inside_isInt S'.mom.r.wf (inside_nat S'.mom.r hx hy)
    by_cases hb : (g.nr : Int) - s.mom.r.os ≤ x
    · have := (k1 (x - g.nr) y _ 0 (by omega) (by omega) (by omega) (by omega)
        (by rw [x1, show ((g.nr : Int) + ((x : Int) - g.nr)) = (x : Int) by omega]; exact (h x y hx hy).1)
        (o' _ _ (by unfold Grid.Inside; omega) (by unfold Grid.Interior; omega))).1
      rw [x1, show ((g.nr : Int) + ((x : Int) - g.nr)) = (x : Int) by omega, add_zero] at this
      exact this
    · rw [k2 x y i1 i2 (by omega)]
      exact (h x y hx hy).1
  · intro x y hx hy
    obtain ⟨i1, i2⟩ := Grid.inside_isInt T'.mom.r.wf (inside_nat T'.mom.r hx (by omega : y < g'.nz))
    by_cases hb : (x : Int) < s.mom.r.os
    · have := (k1 x y 0 _ (by omega) (by omega) (by omega) (by omega)
        (o _ _ (by unfold Grid.Inside; omega) (by unfold Grid.Interior; omega))
        (h' x y hx (by omega)).1).2
      rw [zero_add] at this
      exact this
    · rw [k3 x y i1 i2 (by omega)]
      exact (h' x y hx (by omega)).1

/-- Where C59 fails: particles of a neighbour domain do not count in the cells at the common border.  Particle `p` of the
lower domain has a share in the first row of the upper domain, and so has particle `p'` of the upper domain; after the
exchange of the overlays the map still holds the momentum of `p'` alone, which is not the mean of both. -/
theorem C59_border_fails (q : Par) (hq : q.Good) (g g' : Geom ℝ) (G : g.Good) (G' : g'.Good) (hz : g'.nz = g.nz)
    (s t : St) (S : s.Over g) (T : t.Over g') (hos : t.mom.r.os = s.mom.r.os)
    (ho : s.mom.r.os ≤ g.nr ∧ s.mom.r.os ≤ g'.nr) (p p' : VP) (C : g.Contains p.r p.z) (C' : g'.Contains p'.r p'.z)
    (h : p.v2 < q.rl ^ 2) (h' : p'.v2 < q.rl ^ 2) (y : Nat) (hy : y < g.nz)
    (D : 0 < share q g p g.nr y) (D' : 0 < share q g' p' 0 y)
    (hne : p.gamma q.c * p.vr ≠ p'.gamma q.c * p'.vr) :
    ∃ s' t' a b m, calcMomentum q g [p] s = .ok s' ∧ calcMomentum q g' [p'] t = .ok t' ∧
      s'.mom.r.overlayX t'.mom.r = .ok (a, b) ∧ b.get 0 y = .ok m ∧
      m ≠ (share q g p g.nr y * (p.gamma q.c * q.mass * p.vr) + share q g' p' 0 y * (p'.gamma q.c * q.mass * p'.vr)) /
        (share q g p g.nr y + share q g' p' 0 y) := by
  obtain ⟨s', t', a, b, e, e', f, _, k⟩ := border_value q hq g g' G G' hz s t S T hos ho [p] [p']
    (fun a ha => by rw [List.mem_singleton.mp ha]; exact C) (fun a ha => by rw [List.mem_singleton.mp ha]; exact C')
  have n0 : 0 < g'.nr := by have := S.mom.r.os; omega
  refine ⟨s', t', a, b, _, e, e', f, k 0 y n0 hy, ?_⟩
  have d : dens q g' [p'] ((0 : Nat) : Int) y = share q g' p' 0 y := by unfold dens; simp
  have fa : factor q p' = p'.gamma q.c := by
    unfold factor
    rw [if_pos (by rw [pow_two] at h'; exact h')]
  have V : mean q g' [p'] (fun p => factor q p * q.mass * p.vr) ((0 : Nat) : Int) y = p'.gamma q.c * q.mass * p'.vr := by
    unfold mean
    rw [d, if_neg D'.ne', List.map_cons, List.map_nil, List.sum_singleton]
    dsimp only
    rw [fa]
    have : share q g' p' ((0 : Nat) : Int) y = share q g' p' 0 y := rfl
    rw [this]
    field_simp
  rw [V]
  intro c
  rw [eq_div_iff (by positivity)] at c
  apply hne
  have m := hq.mass
  have : share q g p g.nr y * q.mass * (p.gamma q.c * p.vr - p'.gamma q.c * p'.vr) = 0 := by
    linear_combination -c
  rcases mul_eq_zero.mp this with z | z
  · have := mul_pos D m
    linarith
  · linarith

/-! ### C60, C61: values -/

theorem energyM_kin {q : Par} (hq : q.Good) (p2 : ℝ) : Rel.energyM q.c (q.rl * q.rl) q.mass p2 = .ok (kin q p2) := by
  unfold Rel.energyM kin
  split_ifs with h1 h2
  · rfl
  · exact absurd h2 hq.mass.ne'
  · rfl

/-- The energy map of any set of particles. -/
theorem energy_value (q : Par) (hq : q.Good) (g : Geom ℝ) (G : g.Good) (s : St) (S : s.Over g) (ps : List VP)
    (C : ∀ p ∈ ps, g.Contains p.r p.z) :
    ∃ s', calcEnergy q g ps s = .ok s' ∧ s'.Over g ∧
      (∀ x y : Nat, x < g.nr → y < g.nz →
        s'.energy.get x y = .ok (if dens q g ps x y = 0 then 0 else
          kin q (mean q g ps (fun p => factor q p * q.mass * Real.sqrt p.v2) x y ^ 2) / q.qe)) ∧
      (∀ x y : Int, s.momAbs.Inside x y →
        s'.momAbs.get x y = .ok (ps.map fun p => share q g p x y * (factor q p * q.mass * Real.sqrt p.v2)).sum) := by
  obtain ⟨d, ed, sd, vd⟩ := density_value q.pi g G s.density S.density (ps.map VP.wp) (by
    intro p hp
    obtain ⟨p', h', rfl⟩ := List.mem_map.mp hp
    exact C p' h')
  obtain ⟨a, ea, sa, va⟩ := momAbs_value q g G s.momAbs S.momAbs ps C _ (fun p _ => pAbs_value hq p)
  obtain ⟨m1, b, e1, e2, sb, z1⟩ := clear_map s.energy S.energy
  have va' : ∀ x y : Int, s.momAbs.Inside x y →
        a.get x y = .ok (ps.map fun p => share q g p x y * (factor q p * q.mass * Real.sqrt p.v2)).sum := by
    intro x y hi
    rw [va x y hi, sum_scale q g ps x y _ _ (fun p => ?_)]
    ring
  obtain ⟨en, f1, f2, f3, f4⟩ := loop_cells_set b (S.energy.same sb) (energyCell q d a)
    (fun x y => if dens q g ps x y = 0 then 0 else
          kin q (mean q g ps (fun p => factor q p * q.mass * Real.sqrt p.v2) x y ^ 2) / q.qe) (by
      intro x y hx hy c _
      unfold energyCell
      dsimp only
      rw [vd x y (inside_nat S.density hx hy), dens_eq, Res.ok_bind]
      by_cases hn : dens q g ps x y = 0
      · rw [if_pos hn, if_pos hn]
      · rw [if_neg hn, if_neg hn, va' x y (inside_nat S.momAbs hx hy), Res.ok_bind, ← div_pow, energyM_kin hq, Res.ok_bind]
        unfold mean
        rw [if_neg hn, mul_one_div])
  refine ⟨{ s with energy := en, density := d, momAbs := a }, ?_, ?_, f3, va'⟩
  · unfold calcEnergy
    rw [e1, Res.ok_bind, e2, Res.ok_bind, ed, Res.ok_bind, ea, Res.ok_bind, f1, Res.ok_bind]
  · exact ⟨S.density.same sd, S.momAbs.same sa, S.momW, S.mom, (S.energy.same sb).same f2, S.temperature⟩

/-- The temperature map of any set of particles: it takes the absolute momenta from the last energy map. -/
theorem temperature_value (q : Par) (hq : q.Good) (g : Geom ℝ) (G : g.Good) (s : St) (S : s.Over g) (ps : List VP)
    (C : ∀ p ∈ ps, g.Contains p.r p.z) (A : Nat → Nat → ℝ)
    (hA : ∀ x y : Nat, x < g.nr → y < g.nz → s.momAbs.get x y = .ok (A x y)) :
    ∃ s', calcTemperature q g ps s = .ok s' ∧ s'.Over g ∧
      (∀ x y : Nat, x < g.nr → y < g.nz →
        s'.temperature.get x y = .ok (if dens q g ps x y = 0 then 0 else
          kin q ((A x y / dens q g ps x y) ^ 2 -
            (mean q g ps (fun p => factor q p * q.mass * p.vr) x y ^ 2 +
            mean q g ps (fun p => factor q p * q.mass * p.vp) x y ^ 2 +
            mean q g ps (fun p => factor q p * q.mass * p.vz) x y ^ 2)) / q.qe)) := by
  obtain ⟨d, ed, sd, vd⟩ := density_value q.pi g G s.density S.density (ps.map VP.wp) (by
    intro p hp
    obtain ⟨p', h', rfl⟩ := List.mem_map.mp hp
    exact C p' h')
  obtain ⟨w, ew, sw, v1, v2, v3⟩ := momW_value q g G s.momW S.momW ps C _ (fun p _ => pVec_value hq p)
  obtain ⟨m1, b, e1, e2, sb, z1⟩ := clear_map s.temperature S.temperature
  have g1 : ∀ x y : Nat, x < g.nr → y < g.nz → w.r.get x y =
      .ok ((ps.map fun p => share q g p x y * (factor q p * q.mass * p.vr)).sum) := fun x y hx hy => by
    rw [v1 x y (inside_nat S.momW.r hx hy), sum_scale q g ps x y _ _ (fun p => ?_)]
    dsimp only
    ring
  have g2 : ∀ x y : Nat, x < g.nr → y < g.nz → w.phi.get x y =
      .ok ((ps.map fun p => share q g p x y * (factor q p * q.mass * p.vp)).sum) := fun x y hx hy => by
    rw [v2 x y (inside_nat S.momW.phi hx hy), sum_scale q g ps x y _ _ (fun p => ?_)]
    dsimp only
    ring
  have g3 : ∀ x y : Nat, x < g.nr → y < g.nz → w.z.get x y =
      .ok ((ps.map fun p => share q g p x y * (factor q p * q.mass * p.vz)).sum) := fun x y hx hy => by
    rw [v3 x y (inside_nat S.momW.z hx hy), sum_scale q g ps x y _ _ (fun p => ?_)]
    dsimp only
    ring
  obtain ⟨en, f1, f2, f3, f4⟩ := loop_cells_set b (S.temperature.same sb) (temperatureCell q d s.momAbs w)
    (fun x y => if dens q g ps x y = 0 then 0 else
          kin q ((A x y / dens q g ps x y) ^ 2 -
            (mean q g ps (fun p => factor q p * q.mass * p.vr) x y ^ 2 +
            mean q g ps (fun p => factor q p * q.mass * p.vp) x y ^ 2 +
            mean q g ps (fun p => factor q p * q.mass * p.vz) x y ^ 2)) / q.qe) (by
      intro x y hx hy c _
      unfold temperatureCell
      dsimp only
      rw [vd x y (inside_nat S.density hx hy), dens_eq, Res.ok_bind]
      by_cases hn : dens q g ps x y = 0
      · rw [if_pos hn, if_pos hn]
      · rw [if_neg hn, if_neg hn, g1 x y hx hy, Res.ok_bind, g2 x y hx hy, Res.ok_bind, g3 x y hx hy, Res.ok_bind,
          hA x y hx hy, Res.ok_bind, energyM_kin hq, Res.ok_bind]
        unfold mean
        rw [if_neg hn, if_neg hn, if_neg hn, mul_one_div, sub_div, add_div, add_div, div_pow, div_pow, div_pow, div_pow])
  refine ⟨{ s with temperature := en, density := d, momW := w }, ?_, ?_, f3⟩
  · unfold calcTemperature
    rw [e1, Res.ok_bind, e2, Res.ok_bind, ed, Res.ok_bind, ew, Res.ok_bind, f1, Res.ok_bind]
  · exact ⟨S.density.same sd, S.momAbs, ⟨S.momW.r.same sw.1, S.momW.phi.same sw.2.1, S.momW.z.same sw.2.2⟩, S.mom,
      S.energy, (S.temperature.same sb).same f2⟩

/-! ### C60 -/

/-- Kinetic energy of a particle, `(γ - 1) m c²`. -/
noncomputable def VP.energy (q : Par) (p : VP) : ℝ := (p.gamma q.c - 1) * q.mass * q.c ^ 2

theorem mean_const (q : Par) (g : Geom ℝ) (ps : List VP) (f : VP → ℝ) (x y : Int) (a : ℝ) (h : ∀ p ∈ ps, f p = a)
    (hn : dens q g ps x y ≠ 0) : mean q g ps f x y = a := by
  have : (ps.map fun p => share q g p x y * f p).sum = dens q g ps x y * a := by
    unfold dens
    clear hn
    induction ps with
    | nil => simp
    | cons p l ih =>
      rw [List.map_cons, List.sum_cons, List.map_cons, List.sum_cons, ih (fun p hp => h p (List.mem_cons_of_mem _ hp)),
        h p List.mem_cons_self]
      ring
  unfold mean
  rw [if_neg hn, this]
  field_simp

/-- **C60 (partial).**  Particles of one common speed below `REL_LIMIT`, whatever their directions and places: where
there are particles the energy map holds the kinetic energy that belongs to their relativistic momentum, in units of the
elementary charge; where there are none it holds `0`; the earlier content of the maps has no influence.
Missing: particles of different speeds (`C60_mean_fails`), fast particles (`C60_fast_fails`). -/
theorem C60_partial (q : Par) (hq : q.Good) (g : Geom ℝ) (G : g.Good) (s : St) (S : s.Over g) (ps : List VP)
    (C : ∀ p ∈ ps, g.Contains p.r p.z) (v : ℝ) (hv : 0 ≤ v) (hs : ∀ p ∈ ps, p.v2 = v ^ 2) (hl : v < q.rl) :
    ∃ s', calcEnergy q g ps s = .ok s' ∧
      ∀ x y : Nat, x < g.nr → y < g.nz →
        s'.energy.get x y = .ok (if dens q g ps x y = 0 then 0 else
          kin q ((1 / Real.sqrt (1 - v ^ 2 / q.c ^ 2) * q.mass * v) ^ 2) / q.qe) := by
  obtain ⟨s', e, _, h, _⟩ := energy_value q hq g G s S ps C
  refine ⟨s', e, fun x y hx hy => ?_⟩
  rw [h x y hx hy]
  by_cases hn : dens q g ps x y = 0
  · rw [if_pos hn, if_pos hn]
  · rw [if_neg hn, if_neg hn, mean_const q g ps _ x y (1 / Real.sqrt (1 - v ^ 2 / q.c ^ 2) * q.mass * v) ?_ hn]
    intro p hp
    have e := hs p hp
    unfold factor VP.gamma
    rw [e, if_pos (by nlinarith), Real.sqrt_sq hv]

/-- What `C60_partial` means for the energy itself, when the momentum of the particles is above the limit of the
classical formula: the map holds exactly `(γ - 1) m c²`. -/
theorem C60_relativistic_partial (q : Par) (hq : q.Good) (v : ℝ) (hv : 0 ≤ v) (hl : v < q.rl)
    (hp : q.rl < 1 / Real.sqrt (1 - v ^ 2 / q.c ^ 2) * v) :
    kin q ((1 / Real.sqrt (1 - v ^ 2 / q.c ^ 2) * q.mass * v) ^ 2) =
      (1 / Real.sqrt (1 - v ^ 2 / q.c ^ 2) - 1) * q.mass * q.c ^ 2 := by
  have c := hq.c
  have m := hq.mass
  have rl := hq.rl
  have vc : v ^ 2 < q.c ^ 2 := by
    have := hq.rlc
    nlinarith
  have b1 : v ^ 2 / q.c ^ 2 < 1 := by rw [div_lt_one (by positivity)]; exact vc
  set S := Real.sqrt (1 - v ^ 2 / q.c ^ 2) with hS
  have S0 : 0 < S := Real.sqrt_pos.mpr (by linarith)
  have S2 : S ^ 2 = 1 - v ^ 2 / q.c ^ 2 := Real.sq_sqrt (by linarith)
  have S1 : S ≤ 1 := by
    have : 0 ≤ v ^ 2 / q.c ^ 2 := by positivity
    nlinarith
  have v2 : v ^ 2 = (1 - S ^ 2) * q.c ^ 2 := by rw [S2]; field_simp; ring
  unfold kin
  have : (1 / S * q.mass * v) ^ 2 > q.rl * q.rl * q.mass * q.mass := by
    have h1 : (q.rl * q.mass) ^ 2 < (1 / S * v * q.mass) ^ 2 := by
      apply pow_lt_pow_left₀ _ (by positivity) (by norm_num)
      exact mul_lt_mul_of_pos_right hp m
    have e1 : (1 / S * q.mass * v) ^ 2 = (1 / S * v * q.mass) ^ 2 := by ring
    have e2 : q.rl * q.rl * q.mass * q.mass = (q.rl * q.mass) ^ 2 := by ring
    rw [e1, e2]
    exact h1
  rw [if_pos this]
  have E : (1 / S * q.mass * v) ^ 2 * (q.c * q.c) + (q.mass * (q.c * q.c)) ^ 2 = (1 / S * q.mass * q.c ^ 2) ^ 2 := by
    rw [mul_pow, v2]
    field_simp
    ring
  rw [E, Real.sqrt_sq (by positivity)]
  ring

/-- Where C60 fails: from `REL_LIMIT` on the relativistic factor is left out, and the map shows too small an energy. -/
theorem C60_fast_fails (q : Par) (hq : q.Good) (g : Geom ℝ) (G : g.Good) (s : St) (S : s.Over g) (p : VP)
    (C : g.Contains p.r p.z) (hf : q.rl ^ 2 < p.v2) (hc : p.v2 < q.c ^ 2) (x y : Nat) (hx : x < g.nr)
    (hy : y < g.nz) (hn : share q g p x y ≠ 0) :
    ∃ s' e, calcEnergy q g [p] s = .ok s' ∧ s'.energy.get x y = .ok e ∧ e < p.energy q / q.qe := by
  obtain ⟨s', e, _, h, _⟩ := energy_value q hq g G s S [p] (fun p' hp' => by rw [List.mem_singleton.mp hp']; exact C)
  refine ⟨s', _, e, h x y hx hy, ?_⟩
  have d : dens q g [p] x y = share q g p x y := by unfold dens; simp
  have hd : dens q g [p] x y ≠ 0 := by rw [d]; exact hn
  have f1 : factor q p = 1 := by
    unfold factor
    rw [if_neg (by rw [pow_two] at hf; linarith)]
  have c := hq.c
  have m := hq.mass
  have rl := hq.rl
  have qe := hq.qe
  rw [if_neg hd, mean_const q g [p] _ x y (q.mass * Real.sqrt p.v2) (by
    intro a ha
    rw [List.mem_singleton.mp ha, f1, one_mul]) hd, mul_pow, Real.sq_sqrt (v2_nonneg p)]
  apply div_lt_div_of_pos_right _ qe
  unfold VP.energy VP.gamma
  have v0 : 0 < p.v2 := lt_trans (by positivity) hf
  have b1 : p.v2 / q.c ^ 2 < 1 := by rw [div_lt_one (by positivity)]; exact hc
  have b0 : 0 < p.v2 / q.c ^ 2 := by positivity
  set S := Real.sqrt (1 - p.v2 / q.c ^ 2) with hS
  have S0 : 0 < S := Real.sqrt_pos.mpr (by linarith)
  have S2 : S ^ 2 = 1 - p.v2 / q.c ^ 2 := Real.sq_sqrt (by linarith)
  have S1 : S < 1 := by nlinarith
  have v2 : p.v2 = (1 - S ^ 2) * q.c ^ 2 := by rw [S2]; field_simp; ring
  unfold kin
  rw [if_pos (by
    have : 0 < q.mass ^ 2 := by positivity
    nlinarith)]
  have : Real.sqrt (q.mass ^ 2 * p.v2 * (q.c * q.c) + (q.mass * (q.c * q.c)) ^ 2) < 1 / S * q.mass * q.c ^ 2 := by
    rw [Real.sqrt_lt' (by positivity), v2]
    have : q.mass ^ 2 * ((1 - S ^ 2) * q.c ^ 2) * (q.c * q.c) + (q.mass * (q.c * q.c)) ^ 2 =
        (2 - S ^ 2) * (q.mass * q.c ^ 2) ^ 2 := by ring
    rw [this, show (1 / S * q.mass * q.c ^ 2) ^ 2 = 1 / S ^ 2 * (q.mass * q.c ^ 2) ^ 2 by field_simp]
    apply mul_lt_mul_of_pos_right _ (by positivity)
    rw [lt_div_iff₀ (by positivity)]
    have : 0 < (1 - S ^ 2) ^ 2 := by
      have : 0 < 1 - S ^ 2 := by nlinarith
      positivity
    nlinarith
  nlinarith

/-- Where C60 fails: the map is computed from the mean momentum, so for two particles of one place and weight and of
different (classical) speeds it is below the mean of the energies `p² / 2m`. -/
theorem C60_mean_fails (q : Par) (hq : q.Good) (g : Geom ℝ) (G : g.Good) (s : St) (S : s.Over g) (p p' : VP)
    (hr : p'.r = p.r) (hz : p'.z = p.z) (hw : p'.w = p.w) (C : g.Contains p.r p.z)
    (h : p.gamma q.c ^ 2 * p.v2 ≤ q.rl ^ 2) (h' : p'.gamma q.c ^ 2 * p'.v2 ≤ q.rl ^ 2)
    (l : p.v2 < q.rl ^ 2) (l' : p'.v2 < q.rl ^ 2) (x y : Nat) (hx : x < g.nr)
    (hy : y < g.nz) (hn : 0 < share q g p x y)
    (hne : p.gamma q.c * Real.sqrt p.v2 ≠ p'.gamma q.c * Real.sqrt p'.v2) :
    ∃ s' e, calcEnergy q g [p, p'] s = .ok s' ∧ s'.energy.get x y = .ok e ∧
      e < mean q g [p, p'] (fun a => kin q ((a.gamma q.c * q.mass) ^ 2 * a.v2) / q.qe) x y := by
  obtain ⟨s', e, _, k, _⟩ := energy_value q hq g G s S [p, p'] (by
    intro a ha
    rcases List.mem_cons.mp ha with rfl | ha
    · exact C
    · rw [List.mem_singleton.mp ha, hr, hz]; exact C)
  refine ⟨s', _, e, k x y hx hy, ?_⟩
  have sh : share q g p' x y = share q g p x y := by unfold share; rw [hr, hz, hw]
  have d : dens q g [p, p'] x y = 2 * share q g p x y := by unfold dens; simp [sh]; ring
  have hd : dens q g [p, p'] x y ≠ 0 := by rw [d]; positivity
  have fa : ∀ a : VP, a.v2 < q.rl ^ 2 → factor q a = a.gamma q.c := by
    intro a ha
    unfold factor
    rw [if_pos (by rw [pow_two] at ha; exact ha)]
  have m := hq.mass
  have qe := hq.qe
  have mn : ∀ f : VP → ℝ, mean q g [p, p'] f x y = (f p + f p') / 2 := by
    intro f
    unfold mean
    rw [if_neg hd, d]
    simp only [List.map_cons, List.map_nil, List.sum_cons, List.sum_nil, add_zero, sh]
    field_simp
  rw [if_neg hd, mn, mn, fa p l, fa p' l']
  set a := p.gamma q.c * Real.sqrt p.v2 with ha
  set b := p'.gamma q.c * Real.sqrt p'.v2 with hb
  have rl := hq.rl
  have a2 : a ^ 2 = p.gamma q.c ^ 2 * p.v2 := by rw [ha, mul_pow, Real.sq_sqrt (v2_nonneg p)]
  have b2 : b ^ 2 = p'.gamma q.c ^ 2 * p'.v2 := by rw [hb, mul_pow, Real.sq_sqrt (v2_nonneg p')]
  have K : ∀ t : ℝ, t ≤ q.rl ^ 2 → kin q (q.mass ^ 2 * t) = q.mass / 2 * t := by
    intro t ht
    unfold kin
    rw [if_neg (by
      have : 0 < q.mass ^ 2 := by positivity
      nlinarith)]
    field_simp
  have e1 : ((p.gamma q.c * q.mass * Real.sqrt p.v2 + p'.gamma q.c * q.mass * Real.sqrt p'.v2) / 2) ^ 2 =
      q.mass ^ 2 * ((a + b) / 2) ^ 2 := by rw [ha, hb]; ring
  have e2 : (p.gamma q.c * q.mass) ^ 2 * p.v2 = q.mass ^ 2 * a ^ 2 := by rw [a2]; ring
  have e3 : (p'.gamma q.c * q.mass) ^ 2 * p'.v2 = q.mass ^ 2 * b ^ 2 := by rw [b2]; ring
  have pos : 0 < (a - b) ^ 2 := by
    have : a - b ≠ 0 := sub_ne_zero.mpr hne
    positivity
  rw [e1, e2, e3, K _ (by nlinarith), K _ (by nlinarith), K _ (by nlinarith), ← add_div, div_div, div_lt_div_iff₀ qe (by positivity)]
  have : 0 < q.mass * q.qe := by positivity
  nlinarith

/-! ### C61 -/

theorem share_nonneg (q : Par) (hq : q.Good) (g : Geom ℝ) (G : g.Good) (m : Grid ℝ) (M : g.MapOf m) (p : VP)
    (C : g.Contains p.r p.z) (hw : 0 ≤ p.w) (x y : Int) (hi : m.Inside x y) : 0 ≤ share q g p x y := by
  obtain ⟨m₁, δ, e₁, A₁, i, k, _, _, h1, h2⟩ := C14_local q.pi hq.pi g G m M C hw
  obtain ⟨m₂, e₂, A₂⟩ := weightCyl_density q.pi g G m M ⟨p.r, p.z, p.w⟩ C
  dsimp only at e₂
  rw [e₁] at e₂
  obtain rfl := Res.ok.inj e₂
  have a := A₁.2 x y _ hi (Grid.get_inside m M.wf hi)
  have b := A₂.2 x y _ hi (Grid.get_inside m M.wf hi)
  rw [a] at b
  have e : δ x y = densityOf q.pi g ⟨p.r, p.z, p.w⟩ x y := add_left_cancel (Res.ok.inj b)
  unfold share
  rw [← e]
  by_cases h : (x + g.r0 = i ∨ x + g.r0 = i + 1) ∧ (y + g.z0 = k ∨ y + g.z0 = k + 1)
  · exact (h1 x y h).2
  · rw [h2 x y h]

theorem minkowski (l : List (ℝ × ℝ × ℝ × ℝ)) (h : ∀ a ∈ l, 0 ≤ a.1 ∧ a.2.1 ^ 2 + a.2.2.1 ^ 2 + a.2.2.2 ^ 2 ≤ a.1 ^ 2) :
    0 ≤ (l.map fun a => a.1).sum ∧
    (l.map fun a => a.2.1).sum ^ 2 + (l.map fun a => a.2.2.1).sum ^ 2 + (l.map fun a => a.2.2.2).sum ^ 2 ≤
      (l.map fun a => a.1).sum ^ 2 := by
  induction l with
  | nil => simp
  | cons a l ih =>
    obtain ⟨i1, i2⟩ := ih (fun b hb => h b (List.mem_cons_of_mem _ hb))
    obtain ⟨a1, a2⟩ := h a List.mem_cons_self
    simp only [List.map_cons, List.sum_cons]
    set A := (l.map fun a => a.1).sum
    set R := (l.map fun a => a.2.1).sum
    set P := (l.map fun a => a.2.2.1).sum
    set Z := (l.map fun a => a.2.2.2).sum
    refine ⟨add_nonneg a1 i1, ?_⟩
    have c : (a.2.1 * R + a.2.2.1 * P + a.2.2.2 * Z) ^ 2 ≤ (a.1 * A) ^ 2 := by
      have c1 : (a.2.1 * R + a.2.2.1 * P + a.2.2.2 * Z) ^ 2 ≤
          (a.2.1 ^ 2 + a.2.2.1 ^ 2 + a.2.2.2 ^ 2) * (R ^ 2 + P ^ 2 + Z ^ 2) := by
        nlinarith [sq_nonneg (a.2.1 * P - a.2.2.1 * R), sq_nonneg (a.2.1 * Z - a.2.2.2 * R),
          sq_nonneg (a.2.2.1 * Z - a.2.2.2 * P)]
      have c2 : (a.2.1 ^ 2 + a.2.2.1 ^ 2 + a.2.2.2 ^ 2) * (R ^ 2 + P ^ 2 + Z ^ 2) ≤ a.1 ^ 2 * A ^ 2 :=
        mul_le_mul a2 i2 (by positivity) (by positivity)
      rw [mul_pow]
      linarith
    have d : a.2.1 * R + a.2.2.1 * P + a.2.2.2 * Z ≤ a.1 * A := le_of_abs_le (abs_le_of_sq_le_sq c (mul_nonneg a1 i1))
    nlinarith

/-- `kin` does not change the sign. -/
theorem kin_nonneg {q : Par} (hq : q.Good) {a : ℝ} (h : 0 ≤ a) : 0 ≤ kin q a := by
  unfold kin
  have c := hq.c
  have m := hq.mass
  split_ifs
  · have : q.mass * (q.c * q.c) ≤ Real.sqrt (a * (q.c * q.c) + (q.mass * (q.c * q.c)) ^ 2) := by
      apply Real.le_sqrt_of_sq_le
      have : 0 ≤ a * (q.c * q.c) := by positivity
      linarith
    linarith
  · positivity

theorem kin_zero {q : Par} (hq : q.Good) : kin q 0 = 0 := by
  unfold kin
  have := hq.rl
  have := hq.mass
  rw [if_neg (by
    have : 0 < q.rl * q.rl * q.mass * q.mass := by positivity
    linarith)]
  simp

theorem kin_neg {q : Par} (hq : q.Good) {a : ℝ} (h : a < 0) : kin q a < 0 := by
  unfold kin
  have := hq.rl
  have m := hq.mass
  rw [if_neg (by
    have : 0 < q.rl * q.rl * q.mass * q.mass := by positivity
    linarith)]
  apply div_neg_of_neg_of_pos _ m
  linarith

/-- Energy map and then temperature map of the same particles. -/
theorem temperature_after_energy (q : Par) (hq : q.Good) (g : Geom ℝ) (G : g.Good) (s : St) (S : s.Over g) (ps : List VP)
    (C : ∀ p ∈ ps, g.Contains p.r p.z) :
    ∃ s₁ s', calcEnergy q g ps s = .ok s₁ ∧ calcTemperature q g ps s₁ = .ok s' ∧
      (∀ x y : Nat, x < g.nr → y < g.nz →
        s'.temperature.get x y = .ok (if dens q g ps x y = 0 then 0 else
          kin q (mean q g ps (fun p => factor q p * q.mass * Real.sqrt p.v2) x y ^ 2 -
            (mean q g ps (fun p => factor q p * q.mass * p.vr) x y ^ 2 +
            mean q g ps (fun p => factor q p * q.mass * p.vp) x y ^ 2 +
            mean q g ps (fun p => factor q p * q.mass * p.vz) x y ^ 2)) / q.qe)) := by
  obtain ⟨s₁, e, S₁, _, h⟩ := energy_value q hq g G s S ps C
  obtain ⟨s', e', _, k⟩ := temperature_value q hq g G s₁ S₁ ps C
    (fun x y => (ps.map fun p => share q g p x y * (factor q p * q.mass * Real.sqrt p.v2)).sum)
    (fun x y hx hy => h x y (inside_nat S.momAbs hx hy))
  refine ⟨s₁, s', e, e', fun x y hx hy => ?_⟩
  rw [k x y hx hy]
  by_cases hn : dens q g ps x y = 0
  · rw [if_pos hn, if_pos hn]
  · rw [if_neg hn, if_neg hn]
    congr 4
    unfold mean
    rw [if_neg hn]

/-- **C61 (partial).**  When the energy map of the same particles was computed just before: the temperature is nowhere
negative, and it is zero in every cell where all the particles of the species have one common velocity (a cold beam),
whatever the maps held before.  Missing: the temperature map computed without the energy map, see
`C61_negative_fails`. -/
theorem C61_partial (q : Par) (hq : q.Good) (g : Geom ℝ) (G : g.Good) (s : St) (S : s.Over g) (ps : List VP)
    (C : ∀ p ∈ ps, g.Contains p.r p.z) (hw : ∀ p ∈ ps, 0 ≤ p.w) :
    ∃ s₁ s', calcEnergy q g ps s = .ok s₁ ∧ calcTemperature q g ps s₁ = .ok s' ∧
      ∀ x y : Nat, x < g.nr → y < g.nz → ∃ T, s'.temperature.get x y = .ok T ∧ 0 ≤ T ∧
        ((∃ a b c, ∀ p ∈ ps, p.vr = a ∧ p.vp = b ∧ p.vz = c) → T = 0) ∧
        (dens q g ps x y = 0 → T = 0) := by
  obtain ⟨s₁, s', e, e', h⟩ := temperature_after_energy q hq g G s S ps C
  refine ⟨s₁, s', e, e', fun x y hx hy => ⟨_, h x y hx hy, ?_, ?_, fun hn => by rw [if_pos hn]⟩⟩
  · by_cases hn : dens q g ps x y = 0
    · rw [if_pos hn]
    · rw [if_neg hn]
      apply div_nonneg _ hq.qe.le
      apply kin_nonneg hq
      unfold mean
      rw [if_neg hn, if_neg hn, if_neg hn, if_neg hn, div_pow, div_pow, div_pow, div_pow, ← add_div, ← add_div, ← sub_div]
      apply div_nonneg _ (sq_nonneg _)
      have fp : ∀ p ∈ ps, 0 ≤ factor q p := by
        intro p _
        unfold factor VP.gamma
        split_ifs
        · positivity
        · norm_num
      have := (minkowski (ps.map fun p => (share q g p x y * (factor q p * q.mass * Real.sqrt p.v2),
        share q g p x y * (factor q p * q.mass * p.vr), share q g p x y * (factor q p * q.mass * p.vp),
        share q g p x y * (factor q p * q.mass * p.vz))) (by
          intro a ha
          obtain ⟨p, hp, rfl⟩ := List.mem_map.mp ha
          have s0 := share_nonneg q hq g G s.density S.density p (C p hp) (hw p hp) x y (inside_nat S.density hx hy)
          have f0 := fp p hp
          have m := hq.mass
          dsimp only
          refine ⟨by positivity, le_of_eq ?_⟩
          have e : Real.sqrt p.v2 ^ 2 = p.vr ^ 2 + p.vp ^ 2 + p.vz ^ 2 := Real.sq_sqrt (v2_nonneg p)
          linear_combination -(share q g p x y * factor q p * q.mass) ^ 2 * e)).2
      simp only [List.map_map, Function.comp_def] at this
      linarith
  · rintro ⟨a, b, c, hv⟩
    by_cases hn : dens q g ps x y = 0
    · rw [if_pos hn]
    · rw [if_neg hn]
      cases ps with
      | nil => exact absurd rfl hn
      | cons p l =>
        obtain ⟨pa, pb, pc⟩ := hv p List.mem_cons_self
        have E : ∀ p' ∈ p :: l, p'.vr = p.vr ∧ p'.vp = p.vp ∧ p'.vz = p.vz := by
          intro p' hp'
          obtain ⟨x1, x2, x3⟩ := hv p' hp'
          exact ⟨x1.trans pa.symm, x2.trans pb.symm, x3.trans pc.symm⟩
        have V : ∀ p' ∈ p :: l, p'.v2 = p.v2 := by
          intro p' hp'
          obtain ⟨x1, x2, x3⟩ := E p' hp'
          unfold VP.v2
          rw [x1, x2, x3]
        have F : ∀ p' ∈ p :: l, factor q p' = factor q p := by
          intro p' hp'
          unfold factor VP.gamma
          rw [V p' hp']
        rw [mean_const q g (p :: l) _ x y (factor q p * q.mass * Real.sqrt p.v2) (fun p' hp' => by rw [F p' hp', V p' hp']) hn,
          mean_const q g (p :: l) _ x y (factor q p * q.mass * p.vr) (fun p' hp' => by rw [F p' hp', (E p' hp').1]) hn,
          mean_const q g (p :: l) _ x y (factor q p * q.mass * p.vp) (fun p' hp' => by rw [F p' hp', (E p' hp').2.1]) hn,
          mean_const q g (p :: l) _ x y (factor q p * q.mass * p.vz) (fun p' hp' => by rw [F p' hp', (E p' hp').2.2]) hn]
        rw [mul_pow, Real.sq_sqrt (v2_nonneg p)]
        have : (factor q p * q.mass) ^ 2 * p.v2 - ((factor q p * q.mass * p.vr) ^ 2 + (factor q p * q.mass * p.vp) ^ 2 +
            (factor q p * q.mass * p.vz) ^ 2) = 0 := by
          unfold VP.v2
          ring
        rw [this, kin_zero hq, zero_div]

/-- Where C61 fails: the temperature map takes the absolute momenta that the last energy map left behind.  An energy map
was computed while the particle was at rest; later, when the particle moves, its temperature is shown negative. -/
theorem C61_negative_fails (q : Par) (hq : q.Good) (g : Geom ℝ) (G : g.Good) (s : St) (S : s.Over g) (p : VP)
    (C : g.Contains p.r p.z) (hc : p.v2 < q.c ^ 2) (hv : 0 < p.v2) (x y : Nat) (hx : x < g.nr) (hy : y < g.nz)
    (hn : share q g p x y ≠ 0) :
    ∃ s₁ s' T, calcEnergy q g [{ p with vr := 0, vp := 0, vz := 0 }] s = .ok s₁ ∧ calcTemperature q g [p] s₁ = .ok s' ∧
      s'.temperature.get x y = .ok T ∧ T < 0 := by
  obtain ⟨s₁, e, S₁, _, h⟩ := energy_value q hq g G s S [{ p with vr := 0, vp := 0, vz := 0 }]
    (fun a ha => by rw [List.mem_singleton.mp ha]; exact C)
  obtain ⟨s', e', _, k⟩ := temperature_value q hq g G s₁ S₁ [p] (fun a ha => by rw [List.mem_singleton.mp ha]; exact C)
    (fun x y => 0) (fun x y hx hy => by
      rw [h x y (inside_nat S.momAbs hx hy)]
      have : VP.v2 { p with vr := 0, vp := 0, vz := 0 } = 0 := by unfold VP.v2; norm_num
      simp [this])
  refine ⟨s₁, s', _, e, e', k x y hx hy, ?_⟩
  have d : dens q g [p] x y = share q g p x y := by unfold dens; simp
  have hd : dens q g [p] x y ≠ 0 := by rw [d]; exact hn
  rw [if_neg hd]
  have mc : ∀ f : VP → ℝ, mean q g [p] f x y = f p := fun f =>
    mean_const q g [p] f x y (f p) (fun a ha => by rw [List.mem_singleton.mp ha]) hd
  rw [mc, mc, mc, zero_div]
  apply div_neg_of_neg_of_pos _ hq.qe
  apply kin_neg hq
  have f0 : 0 < factor q p := by
    unfold factor VP.gamma
    split_ifs
    · have c := hq.c
      have : p.v2 / q.c ^ 2 < 1 := by rw [div_lt_one (by positivity)]; exact hc
      have : 0 < Real.sqrt (1 - p.v2 / q.c ^ 2) := Real.sqrt_pos.mpr (by linarith)
      positivity
    · norm_num
  have m := hq.mass
  have : (0 : ℝ) ^ 2 - ((factor q p * q.mass * p.vr) ^ 2 + (factor q p * q.mass * p.vp) ^ 2 +
            (factor q p * q.mass * p.vz) ^ 2) = -((factor q p * q.mass) ^ 2 * p.v2) := by
    unfold VP.v2
    ring
  rw [this]
  have : 0 < (factor q p * q.mass) ^ 2 * p.v2 := by positivity
  linarith

/-! ### Instances -/

/-- A domain of 2 × 2 cells away from the axis, and the neighbour above. -/
noncomputable def exG : Geom ℝ := ⟨1, 1, 2, 0, 2, 2⟩
noncomputable def exG' : Geom ℝ := ⟨1, 1, 4, 0, 2, 2⟩
noncomputable def exM : Grid ℝ := ⟨2, 2, 2, fun _ _ => 7⟩
noncomputable def exS : St := ⟨exM, exM, ⟨exM, exM, exM⟩, ⟨exM, exM, exM⟩, exM, exM⟩
noncomputable def exQ : Par := ⟨3, 10, 5, 1, 2⟩
noncomputable def exP : VP := ⟨3 + 3/4, 1/2, 1, 1, 2, 1⟩
noncomputable def exP' : VP := ⟨4 + 1/4, 1/2, 1, 0, 0, 1⟩

theorem exQ_good : exQ.Good := by constructor <;> norm_num [exQ]
theorem exG_good : exG.Good := by constructor <;> norm_num [exG]
theorem exG'_good : exG'.Good := by constructor <;> norm_num [exG']
theorem exM_over : exG.MapOf exM := ⟨by constructor <;> norm_num [exM, Grid.xr, Grid.yr], rfl, rfl, by norm_num [exM]⟩
theorem exM_over' : exG'.MapOf exM := ⟨by constructor <;> norm_num [exM, Grid.xr, Grid.yr], rfl, rfl, by norm_num [exM]⟩
theorem exS_over : exS.Over exG := ⟨exM_over, exM_over, ⟨exM_over, exM_over, exM_over⟩, ⟨exM_over, exM_over, exM_over⟩, exM_over, exM_over⟩
theorem exS_over' : exS.Over exG' :=
  ⟨exM_over', exM_over', ⟨exM_over', exM_over', exM_over'⟩, ⟨exM_over', exM_over', exM_over'⟩, exM_over', exM_over'⟩
theorem exP_in : exG.Contains exP.r exP.z := by constructor <;> norm_num [exG, exP]
theorem exP'_in : exG'.Contains exP'.r exP'.z := by constructor <;> norm_num [exG', exP']


theorem exP_floor : ⌊exP.r / exG.dr⌋ = 3 ∧ ⌊exP.z / exG.dz⌋ = 0 := by
  constructor <;> rw [Int.floor_eq_iff] <;> norm_num [exP, exG]
theorem exP'_floor : ⌊exP'.r / exG'.dr⌋ = 4 ∧ ⌊exP'.z / exG'.dz⌋ = 0 := by
  constructor <;> rw [Int.floor_eq_iff] <;> norm_num [exP', exG']
theorem exP_share : 0 < share exQ exG exP exG.nr 0 ∧ 0 < share exQ exG exP 1 0 := by
  unfold share densityOf
  rw [exP_floor.1, exP_floor.2]
  norm_num [Deposit.δ, Grid.single, depositOf, exQ, exG, exP, toU32, cylRngVol, cellVolume, cellVolumeNext, show Int.toNat 3 = 3 from rfl]
theorem exP'_share : 0 < share exQ exG' exP' 0 0 := by
  unfold share densityOf
  rw [exP'_floor.1, exP'_floor.2]
  norm_num [Deposit.δ, Grid.single, depositOf, exQ, exG', exP', toU32, cylRngVol, cellVolume, cellVolumeNext, show Int.toNat 4 = 4 from rfl]
-- the hypotheses of `C59_border_fails`, `C60_mean_fails`, `C61_negative_fails` and of the positive theorems can be met
example : exP.v2 < exQ.rl ^ 2 ∧ exP'.v2 < exQ.rl ^ 2 ∧ 0 < exP.v2 ∧ exP.v2 < exQ.c ^ 2 := by
  norm_num [VP.v2, exP, exP', exQ]
example : exP.gamma exQ.c * exP.vr ≠ exP'.gamma exQ.c * exP'.vr := by
  have : 0 < exP.gamma exQ.c := by
    unfold VP.gamma
    have : 0 < Real.sqrt (1 - exP.v2 / exQ.c ^ 2) := Real.sqrt_pos.mpr (by norm_num [VP.v2, exP, exQ])
    positivity
  have e : exP.vr = 1 ∧ exP'.vr = 0 := ⟨rfl, rfl⟩
  rw [e.1, e.2]
  simp [this.ne']
-- a fast particle (C59_fast_fails, C60_fast_fails)
example : exQ.rl ^ 2 < VP.v2 { exP with vz := 6 } ∧ VP.v2 { exP with vz := 6 } < exQ.c ^ 2 := by
  norm_num [VP.v2, exP, exQ]
example : share exQ exG { exP with vz := 6 } 1 0 ≠ 0 := exP_share.2.ne'
-- one speed, different directions (C60_partial), and the relativistic formula of the energy in use
example : VP.v2 { exP with vr := 3, vp := 3, vz := 0 } = 18 ∧ VP.v2 { exP with vr := 0, vp := -3, vz := 3 } = 18 := by
  norm_num [VP.v2, exP]
example : exQ.rl < 1 / Real.sqrt (1 - (4.9 : ℝ) ^ 2 / exQ.c ^ 2) * 4.9 := by
  have e : exQ.rl = 5 ∧ exQ.c = 10 := ⟨rfl, rfl⟩
  rw [e.1, e.2, div_mul_eq_mul_div, lt_div_iff₀ (Real.sqrt_pos.mpr (by norm_num))]
  have : Real.sqrt (1 - (4.9 : ℝ) ^ 2 / 10 ^ 2) < 0.9 := by
    rw [Real.sqrt_lt' (by norm_num)]
    norm_num
  linarith

end Maps
end Pico
