import Verif.Spec.Beam
import Verif.Spec.Weighting
import Verif.Lemmas.CurrentPath

/-! Property C34: when and what a particle beam injects. -/

set_option linter.unusedSectionVars false
set_option linter.unusedSimpArgs false
set_option linter.unusedVariables false

namespace Pico
namespace Beam

open _root_.Pico.Part

section
variable {K : Type _} [Field K] [LinearOrder K] [IsStrictOrderedRing K] [FloorRing K]

theorem start_eq (b : Conf K) (k : Nat) : b.start + (b.length + b.distance) / b.velocity * k = bunchStart b k := by
  unfold bunchStart; ring

theorem domainRadius_eq {b : Conf K} {g : Geom K} (hz : g.z0 = 0) (hr : (g.r0 : K) * g.dr < b.radius) :
    domainRadius b g = beamEdge b g - g.r0 * g.dr := by
  unfold domainRadius beamEdge
  rw [if_neg (by omega)]
  split
  · rename_i h
    rw [min_eq_right h.le]
    push_cast
    ring
  · rename_i h
    rw [min_eq_left (not_lt.mp h)]

theorem collect_ok {α : Type _} (f : Nat → Res α) (h : ∀ i, ∃ a, f i = .ok a) (l : List Nat) (P : α → Prop)
    (hP : ∀ i a, f i = .ok a → P a) : ∃ as, collect (l.map f) = .ok as ∧ as.length = l.length ∧ ∀ a ∈ as, P a := by
  induction l with
  | nil => exact ⟨[], rfl, rfl, by simp⟩
  | cons i l ih =>
    obtain ⟨as, e, n, q⟩ := ih
    obtain ⟨a, ha⟩ := h i
    refine ⟨a :: as, ?_, by simp [n], ?_⟩
    · rw [List.map_cons, collect, ha, Res.ok_bind, e, Res.ok_bind]
    · intro x hx
      rcases List.mem_cons.mp hx with rfl | hx
      · exact hP i x ha
      · exact q x hx

/-- What the setting of a run is assumed to be: a meaningful beam, a domain, a step, random numbers in `[0, 1)`, and
radii that are not more than `2^31` axial cells (the axial cell number is computed from the radius). -/
structure Setting (pi dt : K) (b : Conf K) (g : Geom K) (rnd : Nat → Nat → K × K) : Prop where
  pi : 0 < pi
  dt : 0 < dt
  beam : b.Good
  density : 0 < b.density
  geom : g.Good
  nr : 1 ≤ g.nr
  cells : ((g.r0 + g.nr : Nat) + 1 : K) * g.dr ≤ 2 ^ 31 * g.dz
  rnd : ∀ n i, 0 ≤ (rnd n i).1 ∧ (rnd n i).1 < 1 ∧ 0 ≤ (rnd n i).2 ∧ (rnd n i).2 < 1

theorem injectOne_ok {pi dt : K} {b : Conf K} {g : Geom K} {rnd : Nat → Nat → K × K} (S : Setting pi dt b g rnd)
    (hz : g.z0 = 0) (hr : (g.r0 : K) * g.dr < b.radius) (n i : Nat) :
    ∃ p, injectOne pi dt b g (rnd n i) = .ok p ∧ Fresh b g dt p ∧
      p.posR = (beamEdge b g - g.r0 * g.dr) * (rnd n i).1 + g.dr / 2 + g.r0 * g.dr ∧
      p.cellR = toSizeT ⌊p.posR / g.dr⌋ ∧ p.cellZ = toSizeT ⌊p.posR / g.dz⌋ := by
  obtain ⟨u0, u1, v0, v1⟩ := S.rnd n i
  have dr := S.geom.dr
  have dz := S.geom.dz
  have n1 : (1 : K) ≤ g.nr := by exact_mod_cast S.nr
  have r0 : (0 : K) ≤ g.r0 := Nat.cast_nonneg _
  have rdr := mul_nonneg r0 dr.le
  have e1 : beamEdge b g ≤ ((g.r0 + g.nr : Nat) : K) * g.dr := min_le_right _ _
  have ew : 0 < beamEdge b g - g.r0 * g.dr := by
    rw [sub_pos]
    unfold beamEdge
    refine lt_min hr ?_
    push_cast
    nlinarith
  have dreq := domainRadius_eq hz hr
  set E := beamEdge b g with hE
  set u := (rnd n i).1
  set v := (rnd n i).2
  have x0 : 0 ≤ (E - g.r0 * g.dr) * u := mul_nonneg ew.le u0
  have x1 : (E - g.r0 * g.dr) * u < E - g.r0 * g.dr := mul_lt_of_lt_one_right ew u1
  have vd : 0 < b.velocity * dt := mul_pos S.beam.velocity S.dt
  have y0 : 0 ≤ b.velocity * dt * v := mul_nonneg vd.le v0
  have y1 : b.velocity * dt * v < b.velocity * dt := mul_lt_of_lt_one_right vd v1
  set R := (E - g.r0 * g.dr) * u + g.dr / 2 + g.r0 * g.dr with hR
  have R0 : 0 < R := by linarith
  have Rhi : R < ((g.r0 + g.nr : Nat) : K) * g.dr + g.dr / 2 := by linarith
  have c1 : cellNumber R g.dr = .ok ⌊R / g.dr⌋ := by
    apply VB.cellNumber_eq rfl
    · have : (0 : Int) ≤ ⌊R / g.dr⌋ := Int.floor_nonneg.mpr (by positivity)
      omega
    · rw [Int.floor_lt, div_lt_iff₀ dr]
      have h31 : ((g.r0 + g.nr : Nat) : K) + 1 ≤ ((2 ^ 31 : Int) : K) := by
        have := S.geom.nr
        exact_mod_cast (by omega : g.r0 + g.nr + 1 ≤ 2 ^ 31)
      have := mul_le_mul_of_nonneg_right h31 dr.le
      linarith
  have c2 : cellNumber R g.dz = .ok ⌊R / g.dz⌋ := by
    apply VB.cellNumber_eq rfl
    · have : (0 : Int) ≤ ⌊R / g.dz⌋ := Int.floor_nonneg.mpr (by positivity)
      omega
    · rw [Int.floor_lt, div_lt_iff₀ dz]
      have := S.cells
      have c : ((2 ^ 31 : Int) : K) = 2 ^ 31 := by norm_num
      rw [c]
      linarith
  have am : (0 : K) < b.amount := by exact_mod_cast S.beam.amount
  have bu : (0 : K) < b.bunches := by exact_mod_cast S.beam.bunches
  have hpi := S.pi
  have hrad := S.beam.radius
  have hlen := S.beam.length
  have hden := S.density
  have key : ∃ W : K, 0 < W ∧ injectOne pi dt b g (rnd n i) = .ok { Place.newPart b.id R (b.velocity * dt * v + g.dz / 2) with
      velZ := b.velocity, weight := W, cellR := toSizeT ⌊R / g.dr⌋, cellZ := toSizeT ⌊R / g.dz⌋ } := by
    refine ⟨pi * b.radius * b.radius * b.length * b.bunches * b.density / b.amount *
      (if g.dr / 2 < R then 2 * pi * R * g.dr * g.dz / (pi * b.radius * g.dr * g.dz)
       else pi * (R * R + R * g.dr + g.dr * g.dr / 4) * g.dz / (pi * b.radius * g.dr * g.dz)), ?_, ?_⟩
    · apply mul_pos
      · positivity
      · split <;> positivity
    · unfold injectOne
      dsimp only
      rw [dreq]
      rw [show (E - ↑g.r0 * g.dr) * (rnd n i).1 + g.dr / 2 + ↑g.r0 * g.dr = R from rfl, c1, Res.ok_bind, c2, Res.ok_bind]
  obtain ⟨W, W0, key⟩ := key
  refine ⟨_, key, ?_⟩
  · refine ⟨⟨rfl, rfl, rfl, rfl, rfl, ?_, ?_, ?_, ?_, ?_⟩, rfl, rfl, rfl⟩
    · exact W0
    · show _ ≤ R; linarith
    · show R < _; linarith
    · show _ ≤ b.velocity * dt * v + g.dz / 2; linarith
    · show b.velocity * dt * v + g.dz / 2 < _; linarith

theorem turns_bounds {x : K} (hx : 0 ≤ x) : x ≤ (Place.turns x : K) ∧ (Place.turns x : K) < x + 1 :=
  ⟨Nat.le_ceil _, Nat.ceil_lt_add_one hx⟩

theorem perStep_eq {pi dt : K} {b : Conf K} {g : Geom K} {rnd : Nat → Nat → K × K} (S : Setting pi dt b g rnd)
    (hz : g.z0 = 0) (hr : (g.r0 : K) * g.dr < b.radius) : perStep b g dt = macroPerStep b g dt ∧ 0 ≤ macroPerStep b g dt := by
  have v := S.beam.velocity
  have l := S.beam.length
  have r := S.beam.radius
  have d := S.dt
  have dr := S.geom.dr
  have n1 : (1 : K) ≤ g.nr := by exact_mod_cast S.nr
  have ew : 0 ≤ beamEdge b g - g.r0 * g.dr := by
    rw [sub_nonneg]
    unfold beamEdge
    refine le_min hr.le ?_
    push_cast
    nlinarith
  constructor
  · unfold perStep bunchMacro macroPerStep
    rw [domainRadius_eq hz hr]
    field_simp
  · unfold macroPerStep
    have : (0 : K) ≤ ((b.amount / b.bunches : Nat) : K) := Nat.cast_nonneg _
    positivity

/-- One call, from any state. -/
theorem manage_spec {pi dt : K} {b : Conf K} {g : Geom K} {rnd : Nat → Nat → K × K} (S : Setting pi dt b g rnd) (t : K) (n : Nat)
    (s : St K) : ∃ s', manage pi dt b g t (rnd n) s = .ok s' ∧
      (g.z0 = 0 → (g.r0 : K) * g.dr < b.radius → Entering b s.bunch t →
        ∃ new, s'.particles = s.particles ++ new ∧ macroPerStep b g dt ≤ new.length ∧ (new.length : K) < macroPerStep b g dt + 1 ∧
          ∀ p ∈ new, Fresh b g dt p) ∧
      (¬ (g.z0 = 0 ∧ (g.r0 : K) * g.dr < b.radius ∧ Entering b s.bunch t) → s'.particles = s.particles) ∧
      s'.bunch = if s.bunch < b.bunches ∧ bunchEnd b s.bunch < t ∧ g.z0 = 0 ∧ g.r0 = 0 then s.bunch + 1 else s.bunch := by
  unfold manage
  by_cases hz : g.z0 = 0
  · rw [if_pos hz]
    unfold inject
    by_cases hb : s.bunch < b.bunches
    · rw [if_pos hb]
      dsimp only
      rw [start_eq, show bunchStart b s.bunch + b.length / b.velocity = bunchEnd b s.bunch from rfl]
      by_cases hin : (g.r0 : K) * g.dr < b.radius ∧ bunchStart b s.bunch ≤ t ∧ t < bunchEnd b s.bunch
      · rw [if_pos hin]
        obtain ⟨new, e, l, P⟩ := collect_ok (fun i => injectOne pi dt b g (rnd n i))
          (fun i => ⟨_, (injectOne_ok S hz hin.1 n i).choose_spec.1⟩)
          (List.range (Place.turns (perStep b g dt))) (Fresh b g dt) (fun i a ha => by
            obtain ⟨p, hp, f, _⟩ := injectOne_ok S hz hin.1 n i
            rw [hp] at ha
            cases ha
            exact f)
        rw [e, Res.ok_bind, Res.ok_bind]
        have nf : ¬ (bunchEnd b s.bunch < t ∧ g.z0 = 0 ∧ g.r0 = 0) := fun h => absurd h.1 (not_lt.mpr hin.2.2.le)
        rw [if_neg nf]
        refine ⟨_, rfl, ?_, ?_, ?_⟩
        · intro _ _ _
          rw [List.length_range, (perStep_eq S hz hin.1).1] at l
          have tb := turns_bounds (perStep_eq S hz hin.1).2
          refine ⟨new, rfl, ?_, ?_, P⟩
          · rw [l]; exact tb.1
          · rw [l]; exact tb.2
        · intro h; exact absurd ⟨hz, hin.1, hb, hin.2⟩ h
        · rw [if_neg (fun h => nf h.2)]
      · rw [if_neg hin, Res.ok_bind]
        refine ⟨_, rfl, ?_, ?_, ?_⟩
        · intro _ h1 h2; exact absurd ⟨h1, h2.2⟩ hin
        · intro _; split <;> rfl
        · by_cases hf : bunchEnd b s.bunch < t ∧ g.z0 = 0 ∧ g.r0 = 0
          · rw [if_pos hf, if_pos ⟨hb, hf⟩]
          · rw [if_neg hf, if_neg (fun h => hf h.2)]
    · rw [if_neg hb]
      exact ⟨s, rfl, fun _ _ h => absurd h.1 hb, fun _ => rfl, by rw [if_neg (fun h => hb h.1)]⟩
  · rw [if_neg hz]
    exact ⟨s, rfl, fun h => absurd h hz, fun _ => rfl, by rw [if_neg (fun h => hz h.2.2.1)]⟩

theorem run_succ {pi dt : K} {b : Conf K} {g : Geom K} {rnd : Nat → Nat → K × K} {rest : Nat → List (Part K) → List (Part K)} {n : Nat} {s s' : St K}
    (h : run pi dt b g rnd rest n = .ok s) (h' : manage pi dt b g (n * dt) (rnd n) s = .ok s') :
    run pi dt b g rnd rest (n + 1) = .ok { s' with particles := rest n s'.particles } := by
  rw [run, h, Res.ok_bind, h', Res.ok_bind]

/-- The bunch counter never exceeds the number of bunches, in no history; no step fails. -/
theorem C34_counter {pi dt : K} {b : Conf K} {g : Geom K} {rnd : Nat → Nat → K × K} (S : Setting pi dt b g rnd)
    (rest : Nat → List (Part K) → List (Part K)) (n : Nat) :
    ∃ s, run pi dt b g rnd rest n = .ok s ∧ s.bunch ≤ b.bunches := by
  induction n with
  | zero => exact ⟨init, rfl, Nat.zero_le _⟩
  | succ n ih =>
    obtain ⟨s, e, h⟩ := ih
    obtain ⟨s', e', _, _, k⟩ := manage_spec S (n * dt) n s
    refine ⟨_, run_succ e e', ?_⟩
    show s'.bunch ≤ _
    rw [k]
    split <;> omega

/-- C34, safety: in every history, a step adds particles only while one of the beam's bunches enters, only in a domain at
the left edge that the beam reaches, always the same number, each with the beam's velocity and within half a cell of
the beam's cross section; at all other times it adds nothing. -/
theorem C34_window_partial {pi dt : K} {b : Conf K} {g : Geom K} {rnd : Nat → Nat → K × K} (S : Setting pi dt b g rnd)
    (rest : Nat → List (Part K) → List (Part K)) (n : Nat) {s : St K} (h : run pi dt b g rnd rest n = .ok s) :
    ∃ s' new, manage pi dt b g (n * dt) (rnd n) s = .ok s' ∧ s'.particles = s.particles ++ new ∧
      (∀ p ∈ new, Fresh b g dt p) ∧
      (new ≠ [] → g.z0 = 0 ∧ (g.r0 : K) * g.dr < b.radius ∧ (∃ k, Entering b k (n * dt)) ∧
        macroPerStep b g dt ≤ new.length ∧ (new.length : K) < macroPerStep b g dt + 1) := by
  obtain ⟨s', e, a, c, _⟩ := manage_spec S (n * dt) n s
  by_cases hh : g.z0 = 0 ∧ (g.r0 : K) * g.dr < b.radius ∧ Entering b s.bunch (n * dt)
  · obtain ⟨new, e1, l, u, f⟩ := a hh.1 hh.2.1 hh.2.2
    exact ⟨s', new, e, e1, f, fun _ => ⟨hh.1, hh.2.1, ⟨_, hh.2.2⟩, l, u⟩⟩
  · exact ⟨s', [], e, by simp [c hh], by simp, fun h => absurd rfl h⟩

theorem bunch_order {b : Conf K} (B : b.Good) {i j : Nat} (h : i < j) : bunchEnd b i + b.distance / b.velocity ≤ bunchStart b j := by
  have hv := B.velocity
  have hl := B.length
  have hd := B.distance
  have : ((i : K) + 1) ≤ j := by exact_mod_cast h
  have p : 0 ≤ b.length / b.velocity + b.distance / b.velocity := by positivity
  have := mul_le_mul_of_nonneg_right this p
  unfold bunchEnd bunchStart
  linarith

theorem start_lt_end {b : Conf K} (B : b.Good) (k : Nat) : bunchStart b k < bunchEnd b k := by
  have hv := B.velocity
  have hl := B.length
  have : 0 < b.length / b.velocity := by positivity
  unfold bunchEnd
  linarith

/-- The counter of the domain in the corner: all bunches before the counter have passed, the one it stands at has not
passed before the previous step. -/
theorem counter_spec {pi dt : K} {b : Conf K} {g : Geom K} {rnd : Nat → Nat → K × K} (S : Setting pi dt b g rnd)
    (rest : Nat → List (Part K) → List (Part K)) (hz : g.z0 = 0) (hr : g.r0 = 0) (hgap : dt < b.distance / b.velocity)
    (n : Nat) {s : St K} (h : run pi dt b g rnd rest n = .ok s) :
    (∀ j, j < s.bunch → bunchEnd b j < n * dt) ∧ (s.bunch < b.bunches → (n : K) * dt ≤ bunchEnd b s.bunch + dt) := by
  have dt0 := S.dt
  induction n generalizing s with
  | zero =>
    cases h
    refine ⟨fun j hj => absurd hj (Nat.not_lt_zero _), fun _ => ?_⟩
    show ((0 : Nat) : K) * dt ≤ bunchEnd b 0 + dt
    have v := S.beam.velocity
    have l := S.beam.length
    have st := S.beam.start
    have : 0 < b.length / b.velocity := by positivity
    unfold bunchEnd bunchStart
    push_cast
    linarith
  | succ n ih =>
    obtain ⟨s0, e0, _⟩ := C34_counter S rest n
    obtain ⟨s1, e1, _, _, k⟩ := manage_spec S (n * dt) n s0
    have := run_succ (rest := rest) e0 e1
    rw [this] at h
    cases h
    obtain ⟨i1, i2⟩ := ih e0
    dsimp only
    rw [k]
    push_cast
    by_cases hc : s0.bunch < b.bunches ∧ bunchEnd b s0.bunch < (n : K) * dt ∧ g.z0 = 0 ∧ g.r0 = 0
    · rw [if_pos hc]
      refine ⟨fun j hj => ?_, fun _ => ?_⟩
      · rcases Nat.lt_succ_iff_lt_or_eq.mp hj with h | rfl
        · linarith [i1 j h]
        · linarith [hc.2.1]
      · have := i2 hc.1
        have b1 := bunch_order S.beam (Nat.lt_succ_self s0.bunch)
        have b2 := start_lt_end S.beam (s0.bunch + 1)
        rw [Nat.succ_eq_add_one] at b1
        linarith
    · rw [if_neg hc]
      refine ⟨fun j hj => by linarith [i1 j hj], fun h => ?_⟩
      have : ¬ bunchEnd b s0.bunch < (n : K) * dt := fun hh => hc ⟨h, hh, hz, hr⟩
      linarith [not_lt.mp this]

/-- C34, completeness, for the domain in the corner of the chamber and bunches that follow each other in more than one
step: the number of macroparticles is injected in every step in which a bunch enters. -/
theorem C34_complete_partial {pi dt : K} {b : Conf K} {g : Geom K} {rnd : Nat → Nat → K × K} (S : Setting pi dt b g rnd)
    (rest : Nat → List (Part K) → List (Part K)) (hz : g.z0 = 0) (hr : g.r0 = 0) (hgap : dt < b.distance / b.velocity)
    (n : Nat) {s : St K} (h : run pi dt b g rnd rest n = .ok s) (k : Nat) (hk : Entering b k (n * dt)) :
    ∃ s' new, manage pi dt b g (n * dt) (rnd n) s = .ok s' ∧ s'.particles = s.particles ++ new ∧ (∀ p ∈ new, Fresh b g dt p) ∧
      macroPerStep b g dt ≤ new.length ∧ (new.length : K) < macroPerStep b g dt + 1 := by
  obtain ⟨c1, c2⟩ := counter_spec S rest hz hr hgap n h
  have eq : s.bunch = k := by
    rcases lt_trichotomy s.bunch k with hlt | heq | hgt
    · have b1 := bunch_order S.beam hlt
      have := c2 (lt_trans hlt hk.1)
      linarith [hk.2.1]
    · exact heq
    · have := c1 k hgt
      linarith [hk.2.2]
  obtain ⟨s', e, a, _, _⟩ := manage_spec S (n * dt) n s
  obtain ⟨new, e1, l, u, f⟩ := a hz (by rw [hr]; simpa using S.beam.radius) (by rw [eq]; exact hk)
  exact ⟨s', new, e, e1, f, l, u⟩

/-- C34 fails in every other domain: its counter stays at the first bunch, so nothing is injected once the first
bunch has entered, although the beam reaches the domain and further bunches enter. -/
theorem C34_outer_domain_fails {pi dt : K} {b : Conf K} {g : Geom K} {rnd : Nat → Nat → K × K} (S : Setting pi dt b g rnd)
    (rest : Nat → List (Part K) → List (Part K)) (hr : 0 < g.r0) (n : Nat) (ht : bunchEnd b 0 ≤ n * dt) {s : St K}
    (h : run pi dt b g rnd rest n = .ok s) :
    ∃ s', manage pi dt b g (n * dt) (rnd n) s = .ok s' ∧ s'.particles = s.particles := by
  have zero : ∀ n, ∀ s, run pi dt b g rnd rest n = .ok s → s.bunch = 0 := by
    intro n
    induction n with
    | zero => intro s h; cases h; rfl
    | succ n ih =>
      intro s h
      obtain ⟨s0, e0, _⟩ := C34_counter S rest n
      obtain ⟨s1, e1, _, _, k⟩ := manage_spec S (n * dt) n s0
      rw [run_succ e0 e1] at h
      cases h
      dsimp only
      rw [k, if_neg (fun h => by omega)]
      exact ih s0 e0
  obtain ⟨s', e, _, c, _⟩ := manage_spec S (n * dt) n s
  refine ⟨s', e, c (fun hh => ?_)⟩
  have := hh.2.2
  rw [zero n s h] at this
  exact absurd this.2.2 (not_lt.mpr ht)

/-- C34 fails for bunches without a distance between them: if a bunch takes exactly `m` steps, then the first two steps of
the second bunch inject nothing, in no domain. -/
theorem C34_gap_fails {pi dt : K} {b : Conf K} {g : Geom K} {rnd : Nat → Nat → K × K} (S : Setting pi dt b g rnd)
    (rest : Nat → List (Part K) → List (Part K)) (hb : 2 ≤ b.bunches) (hs : b.start = 0) (hd : b.distance = 0) (m : Nat) (hm : 2 ≤ m)
    (hl : b.length / b.velocity = m * dt) (n : Nat) (hn : n = m ∨ n = m + 1) {s : St K} (h : run pi dt b g rnd rest n = .ok s) :
    Entering b 1 (n * dt) ∧ ∃ s', manage pi dt b g (n * dt) (rnd n) s = .ok s' ∧ s'.particles = s.particles := by
  have dt0 := S.dt
  have m2 : (2 : K) ≤ m := by exact_mod_cast hm
  have e0 : bunchEnd b 0 = m * dt := by unfold bunchEnd bunchStart; rw [hs, hl]; push_cast; ring
  have s1 : bunchStart b 1 = m * dt := by unfold bunchStart; rw [hs, hl, hd]; push_cast; ring
  have e1 : bunchEnd b 1 = m * dt + m * dt := by unfold bunchEnd; rw [s1, hl]
  have zero : ∀ n, n ≤ m + 1 → ∀ s, run pi dt b g rnd rest n = .ok s → s.bunch = 0 := by
    intro n
    induction n with
    | zero => intro _ s h; cases h; rfl
    | succ n ih =>
      intro hn s h
      obtain ⟨s0, e0', _⟩ := C34_counter S rest n
      obtain ⟨s1, e1, _, _, k⟩ := manage_spec S (n * dt) n s0
      rw [run_succ e0' e1] at h
      cases h
      dsimp only
      have z := ih (by omega) s0 e0'
      rw [k, if_neg]
      · exact z
      · rintro ⟨_, hh, _⟩
        rw [z, e0] at hh
        have : (n : K) ≤ m := by exact_mod_cast (by omega : n ≤ m)
        nlinarith
  have nb : (m : K) ≤ n ∧ (n : K) ≤ m + 1 := by
    rcases hn with rfl | rfl
    · exact ⟨le_refl _, by linarith⟩
    · push_cast; exact ⟨by linarith, le_refl _⟩
  have t1 : (m : K) * dt ≤ n * dt := mul_le_mul_of_nonneg_right nb.1 dt0.le
  have t2 : (n : K) * dt ≤ (m + 1) * dt := mul_le_mul_of_nonneg_right nb.2 dt0.le
  constructor
  · refine ⟨by omega, by rw [s1]; exact t1, ?_⟩
    rw [e1]
    nlinarith
  · obtain ⟨s', e, _, c, _⟩ := manage_spec S (n * dt) n s
    refine ⟨s', e, c (fun hh => ?_)⟩
    have := hh.2.2
    rw [zero n (by rcases hn with rfl | rfl <;> omega) s h] at this
    have := this.2.2
    rw [e0] at this
    linarith

/-- C34 fails for the radius: a random number close enough to one puts the particle outside the beam, and outside the
domain if the beam ends with the domain. -/
theorem C34_radius_fails {pi dt : K} {b : Conf K} {g : Geom K} {rnd : Nat → Nat → K × K} (S : Setting pi dt b g rnd)
    (hz : g.z0 = 0) (hr : (g.r0 : K) * g.dr < b.radius) (hin : b.radius ≤ ((g.r0 + g.nr : Nat) : K) * g.dr) (n i : Nat)
    (hu : 1 - g.dr / 2 / (b.radius - g.r0 * g.dr) < (rnd n i).1) :
    ∃ p, injectOne pi dt b g (rnd n i) = .ok p ∧ b.radius < p.posR := by
  obtain ⟨p, e, _, r, _⟩ := injectOne_ok S hz hr n i
  refine ⟨p, e, ?_⟩
  have : beamEdge b g = b.radius := min_eq_left hin
  rw [r, this]
  have w : 0 < b.radius - g.r0 * g.dr := by linarith
  have := mul_lt_mul_of_pos_left hu w
  rw [mul_sub, mul_one, mul_div_cancel₀ _ w.ne'] at this
  linarith

/-- C35 fails for particles just injected by a beam: the axial cell number is computed from the radius, so a particle at a
radius of `j` axial cells gets the axial cell number `j`, although it is in cell 0. -/
theorem C35_beam_fails {pi dt : K} {b : Conf K} {g : Geom K} {rnd : Nat → Nat → K × K} (S : Setting pi dt b g rnd)
    (hz : g.z0 = 0) (hr : (g.r0 : K) * g.dr < b.radius) (hv : b.velocity * dt ≤ g.dz / 2) (hfar : g.dz ≤ (g.r0 : K) * g.dr + g.dr / 2) (n i : Nat) :
    ∃ p, injectOne pi dt b g (rnd n i) = .ok p ∧ ⌊p.posZ / g.dz⌋ = 0 ∧ 1 ≤ p.cellZ := by
  obtain ⟨p, e, f, r, _, c⟩ := injectOne_ok S hz hr n i
  have dz := S.geom.dz
  have dr := S.geom.dr
  refine ⟨p, e, ?_, ?_⟩
  · rw [Int.floor_eq_iff]
    constructor
    · rw [Int.cast_zero]
      have := f.zlo
      apply div_nonneg _ dz.le
      linarith
    · rw [Int.cast_zero, zero_add, div_lt_one dz]
      linarith [f.zhi]
  · rw [c]
    have lo : (1 : Int) ≤ ⌊p.posR / g.dz⌋ := by
      rw [Int.le_floor, Int.cast_one, one_le_div dz]
      linarith [f.rlo]
    have hi : ⌊p.posR / g.dz⌋ < 2 ^ 31 := by
      rw [Int.floor_lt, div_lt_iff₀ dz]
      have := S.cells
      have c : ((2 ^ 31 : Int) : K) = 2 ^ 31 := by norm_num
      rw [c]
      have e1 : beamEdge b g ≤ ((g.r0 + g.nr : Nat) : K) * g.dr := min_le_right _ _
      linarith [f.rhi]
    unfold toSizeT
    rw [Int.emod_eq_of_lt (by omega) (by omega)]
    omega

end

/-! ### Concrete cases -/

def exB : Conf ℚ := ⟨5, 100, 0, 2, 3, 3, 4, 2, 1⟩
def exG0 : Geom ℚ := ⟨1 / 2, 1 / 4, 0, 0, 3, 3⟩
def exG1 : Geom ℚ := ⟨1 / 2, 1 / 4, 3, 0, 3, 3⟩
def exRnd : Nat → Nat → ℚ × ℚ := fun n i => (i / (i + 1), n / (n + 2))
theorem exRnd_ok (n i : Nat) : 0 ≤ (exRnd n i).1 ∧ (exRnd n i).1 < 1 ∧ 0 ≤ (exRnd n i).2 ∧ (exRnd n i).2 < 1 := by
  have a : (0 : ℚ) ≤ i := Nat.cast_nonneg _
  have b : (0 : ℚ) ≤ n := Nat.cast_nonneg _
  refine ⟨by unfold exRnd; positivity, ?_, by unfold exRnd; positivity, ?_⟩
  · show (i : ℚ) / (i + 1) < 1
    rw [div_lt_one (by linarith)]; linarith
  · show (n : ℚ) / (n + 2) < 1
    rw [div_lt_one (by linarith)]; linarith
theorem exS0 : Setting 3 (1 / 8) exB exG0 exRnd :=
  ⟨by norm_num, by norm_num, ⟨by norm_num [exB], by norm_num [exB], by norm_num [exB], by norm_num [exB], by norm_num [exB], by decide, by decide⟩,
    by norm_num [exB], ⟨by norm_num [exG0], by norm_num [exG0], by decide, by decide⟩, by decide, by norm_num [exG0], exRnd_ok⟩
theorem exS1 : Setting 3 (1 / 8) exB exG1 exRnd :=
  ⟨by norm_num, by norm_num, ⟨by norm_num [exB], by norm_num [exB], by norm_num [exB], by norm_num [exB], by norm_num [exB], by decide, by decide⟩,
    by norm_num [exB], ⟨by norm_num [exG1], by norm_num [exG1], by decide, by decide⟩, by decide, by norm_num [exG1], exRnd_ok⟩

example := C34_counter exS0 (fun _ l => l.tail) 100
example : ∃ s, run 3 (1 / 8) exB exG0 exRnd (fun _ l => l) 50 = .ok s ∧ ∃ s' new, manage 3 (1 / 8) exB exG0 (50 * (1 / 8)) (exRnd 50) s = .ok s' ∧
    s'.particles = s.particles ++ new ∧ 0 < new.length := by
  obtain ⟨s, e, _⟩ := C34_counter exS0 (fun _ l => l) 50
  obtain ⟨s', new, e', a, _, l, _⟩ := C34_complete_partial exS0 (fun _ l => l) rfl rfl (by norm_num [exB]) 50 e 1
    ⟨by decide, by norm_num [bunchStart, exB], by norm_num [bunchStart, bunchEnd, exB]⟩
  refine ⟨s, e, s', new, by exact_mod_cast e', a, ?_⟩
  have : (0 : ℚ) < macroPerStep exB exG0 (1 / 8) := by norm_num [macroPerStep, beamEdge, exB, exG0]
  have : (0 : ℚ) < new.length := by linarith
  exact_mod_cast this
example : (exG1.r0 : ℚ) * exG1.dr < exB.radius ∧ Entering exB 1 ((50 : Nat) * (1 / 8)) ∧ bunchEnd exB 0 ≤ (50 : Nat) * (1 / 8) :=
  ⟨by norm_num [exG1, exB], ⟨by decide, by norm_num [bunchStart, exB], by norm_num [bunchStart, bunchEnd, exB]⟩, by norm_num [bunchStart, bunchEnd, exB]⟩
example := fun s => C34_outer_domain_fails exS1 (fun _ l => l) (by decide) 50 (by norm_num [bunchStart, bunchEnd, exB]) (s := s)
theorem exS2 : Setting 3 (1 / 8) { exB with distance := 0 } exG0 exRnd :=
  ⟨by norm_num, by norm_num, ⟨by norm_num [exB], by norm_num [exB], by norm_num [exB], by norm_num [exB], by norm_num [exB], by decide, by decide⟩,
    by norm_num [exB], ⟨by norm_num [exG0], by norm_num [exG0], by decide, by decide⟩, by decide, by norm_num [exG0], exRnd_ok⟩
example := fun s => C34_gap_fails exS2 (fun _ l => l) (by decide) rfl rfl 32 (by norm_num) (by norm_num [exB]) 33 (Or.inr rfl) (s := s)
example := C34_radius_fails exS1 rfl (by norm_num [exG1, exB]) (by norm_num [exG1, exB]) 3 3 (by norm_num [exG1, exB, exRnd])
example := C35_beam_fails exS1 rfl (by norm_num [exG1, exB]) (by norm_num [exG1, exB]) (by norm_num [exG1]) 3 1

end Beam
end Pico
