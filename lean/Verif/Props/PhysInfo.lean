import Verif.Spec.PhysInfo
import Verif.Props.Beam
import Verif.Props.Output
import Verif.Props.Limits
import Verif.Lemmas.Config
import Mathlib.Analysis.SpecialFunctions.Integrals.Basic

/-! Property C133: what the summary of recorded results foretells. -/

set_option linter.unusedSectionVars false
set_option linter.unusedSimpArgs false
set_option linter.unusedVariables false

namespace Pico
namespace PhysInfo

open Config MetaReader

section
variable {K : Type} [Field K] [LinearOrder K] [IsStrictOrderedRing K]

theorem last_cons {name : List Char} {a s : Species.Specie K} {l : List (Species.Specie K)} (h : LastNamed name (a :: l) s) :
    LastNamed name l s ∨ (a = s ∧ a.name.map Char.toLower = name ∧ ∀ t ∈ l, t.name.map Char.toLower ≠ name) := by
  obtain ⟨l1, l2, e, n, r⟩ := h
  cases l1 with
  | nil => cases e; exact .inr ⟨rfl, n, r⟩
  | cons x l1 => cases e; exact .inl ⟨l1, l2, rfl, n, r⟩

theorem mean_eq {s : Species.Specie K} {t : MSpecie K} (h : ShowsSpecie s t) : mean t = some ((s.left + s.right) / 2) := by
  unfold mean; rw [h.left, h.right]; rfl

theorem words : (['e', 'l', 'e', 'c', 't', 'r', 'o', 'n', 's'] : List Char) ≠ ['i', 'o', 'n', 's'] := by decide

theorem scan_el {f : Found K} {s : Species.Specie K} {t : MSpecie K} (h : ShowsSpecie s t)
    (n : s.name.map Char.toLower = "electrons".toList) : scan f t = some { f with el := some ((s.left + s.right) / 2, .num s.temperature) } := by
  have n' : lower s.name = ['e', 'l', 'e', 'c', 't', 'r', 'o', 'n', 's'] := n
  unfold scan
  rw [h.name]
  dsimp only
  rw [if_pos n', mean_eq h, h.temperature]
  simp only [Option.bind_some]
  rw [if_neg (by rw [n']; decide)]

theorem scan_ion {f : Found K} {s : Species.Specie K} {t : MSpecie K} (h : ShowsSpecie s t)
    (n : s.name.map Char.toLower = "ions".toList) : scan f t = some { f with ion := some ((s.left + s.right) / 2, .num s.temperature) } := by
  have n' : lower s.name = ['i', 'o', 'n', 's'] := n
  unfold scan
  rw [h.name]
  dsimp only
  rw [if_neg (by rw [n']; decide)]
  simp only [Option.bind_some]
  rw [if_pos n', mean_eq h, h.temperature]
  rfl

theorem scan_other {f : Found K} {s : Species.Specie K} {t : MSpecie K} (h : ShowsSpecie s t)
    (n : s.name.map Char.toLower ≠ "electrons".toList) (n2 : s.name.map Char.toLower ≠ "ions".toList) : scan f t = some f := by
  have a : ¬ lower s.name = ['e', 'l', 'e', 'c', 't', 'r', 'o', 'n', 's'] := n
  have b : ¬ lower s.name = ['i', 'o', 'n', 's'] := n2
  unfold scan
  rw [h.name]
  dsimp only
  rw [if_neg a]
  simp only [Option.bind_some]
  rw [if_neg b]

theorem scanAll_spec {cs : List (Species.Specie K)} {ms : List (MSpecie K)} (h : List.Forall₂ ShowsSpecie cs ms) (f : Found K) :
    ∃ f', scanAll ms f = some f' ∧
      (∀ s, LastNamed "electrons".toList cs s → f'.el = some ((s.left + s.right) / 2, .num s.temperature)) ∧
      ((∀ t ∈ cs, t.name.map Char.toLower ≠ "electrons".toList) → f'.el = f.el) ∧
      (∀ s, LastNamed "ions".toList cs s → f'.ion = some ((s.left + s.right) / 2, .num s.temperature)) ∧
      ((∀ t ∈ cs, t.name.map Char.toLower ≠ "ions".toList) → f'.ion = f.ion) := by
  induction h generalizing f with
  | nil =>
    refine ⟨f, rfl, ?_, fun _ => rfl, ?_, fun _ => rfl⟩ <;>
    · rintro s ⟨l1, l2, e, -⟩
      cases l1 <;> cases e
  | @cons a t cs ms h1 h2 ih =>
    by_cases he : a.name.map Char.toLower = "electrons".toList
    · obtain ⟨f', e, p1, p2, p3, p4⟩ := ih { f with el := some ((a.left + a.right) / 2, .num a.temperature) }
      have hi : a.name.map Char.toLower ≠ "ions".toList := by rw [he]; decide
      refine ⟨f', ?_, ?_, ?_, ?_, ?_⟩
      · rw [scanAll, scan_el h1 he]; exact e
      · intro s hs
        rcases last_cons hs with hs | ⟨rfl, -, r⟩
        · exact p1 s hs
        · exact p2 r
      · intro r; exact absurd he (r a (by simp))
      · intro s hs
        rcases last_cons hs with hs | ⟨rfl, n, r⟩
        · exact p3 s hs
        · exact absurd n hi
      · intro r; exact p4 fun t ht => r t (by simp [ht])
    · by_cases hi : a.name.map Char.toLower = "ions".toList
      · obtain ⟨f', e, p1, p2, p3, p4⟩ := ih { f with ion := some ((a.left + a.right) / 2, .num a.temperature) }
        refine ⟨f', ?_, ?_, ?_, ?_, ?_⟩
        · rw [scanAll, scan_ion h1 hi]; exact e
        · intro s hs
          rcases last_cons hs with hs | ⟨rfl, n, r⟩
          · exact p1 s hs
          · exact absurd n he
        · intro r; exact p2 fun t ht => r t (by simp [ht])
        · intro s hs
          rcases last_cons hs with hs | ⟨rfl, -, r⟩
          · exact p3 s hs
          · exact p4 r
        · intro r; exact absurd hi (r a (by simp))
      · obtain ⟨f', e, p1, p2, p3, p4⟩ := ih f
        refine ⟨f', ?_, ?_, ?_, ?_, ?_⟩
        · rw [scanAll, scan_other h1 he hi]; exact e
        · intro s hs
          rcases last_cons hs with hs | ⟨rfl, n, r⟩
          · exact p1 s hs
          · exact absurd n he
        · intro r; exact p2 fun t ht => r t (by simp [ht])
        · intro s hs
          rcases last_cons hs with hs | ⟨rfl, n, r⟩
          · exact p3 s hs
          · exact absurd n hi
        · intro r; exact p4 fun t ht => r t (by simp [ht])

variable {c : Config.Conf K} {m : Meta K} {p : BeamData K} {e s : Species.Specie K}

theorem head_shows (R : Ready c m p e s) : ∃ t, m.beams.head? = some t ∧ ShowsBeam p t ∧ t.bunches = .num (p.bunches : K) := by
  obtain ⟨t, h, w⟩ := R.whole
  refine ⟨t, h, ?_, w⟩
  have b := R.shows_.beams
  have f := R.first
  generalize c.beams = l at b f
  generalize m.beams = l' at b h
  cases b with
  | nil => cases h
  | cons x y => cases h; cases f; exact x

theorem info_eq (R : Ready c m p e s) (sq : K → K) (pi : K) : physInfo sq pi m =
    (numbers sq pi ((e.left + e.right) / 2) ((s.left + s.right) / 2) e.temperature s.temperature c.geo.sizeZ c.time.start c.time.stop
      c.time.step p.velocity p.bunches p.length p.distance p.radius p.density).bind fun r => some (.info r) := by
  obtain ⟨f, h, h1, -, h2, -⟩ := scanAll_spec R.shows_.species ⟨none, none⟩
  obtain ⟨t, ht, hb, hw⟩ := head_shows R
  unfold physInfo
  rw [h, Option.bind_some, h1 e R.electrons, Option.bind_some, if_neg R.densities.1.ne', h2 s R.ions, Option.bind_some,
    if_neg R.densities.2.ne', ht, Option.bind_some, R.shows_.sizeZ, R.shows_.start, R.shows_.stop, R.shows_.step, hb.velocity, hw, hb.length,
    hb.distance, hb.radius, hb.density]
  rfl

theorem div_some {x y : K} (h : y ≠ 0) : pyDiv x y = some (x / y) := if_neg h

/-- The summary of a file with electrons, ions and a moving beam. -/
theorem numbers_eq (sq : K → K) (hsq : ∀ x, 0 < x → 0 < sq x) {pi ne ni te ti size start stop step v n len dist rad dens : K} (hpi : 0 < pi)
    (hne : 0 < ne) (hni : 0 < ni) (hte : 0 < te) (hti : 0 < ti) (hv : 0 < v) (hstep : 0 < step) :
    numbers sq pi ne ni te ti size start stop step v n len dist rad dens = some {
      frequency := sq (ne * (-(16 / 10 ^ 20)) ^ 2 / (91 / 10 ^ 32 * (88 / 10 ^ 13))) / (2 * pi)
      wake := 2 * pi * v / sq (ne * (-(16 / 10 ^ 20)) ^ 2 / (91 / 10 ^ 32 * (88 / 10 ^ 13)))
      debye := 7433944 / 1000 / sq (ne / te + ni / ti)
      passage := size / v + (len * n + dist * (n - 1)) / v
      steps := (stop - start) / step
      velocity := v
      time := (len * n + dist * (n - 1)) / v
      length := len * n + dist * (n - 1)
      radius := rad
      particles := pi * rad ^ 2 * (len / v) * v * dens * n
      bunch := if 1 < n then some ⟨len / v, len, dist + len, n, pi * rad ^ 2 * (len / v) * v * dens⟩ else none } := by
  have hw : 0 < ne * (-(16 / 10 ^ 20)) ^ 2 / (91 / 10 ^ 32 * (88 / 10 ^ 13)) := by positivity
  have hd : 0 < ne / te + ni / ti := by positivity
  have l1 : langmurFreq sq ne = some (sq (ne * (-(16 / 10 ^ 20)) ^ 2 / (91 / 10 ^ 32 * (88 / 10 ^ 13)))) := by
    unfold langmurFreq
    rw [div_some (by positivity), Option.bind_some]
    unfold pySqrt
    rw [if_neg (not_lt.mpr hw.le)]
  have l2 : debyeLength sq ne ni te ti = some (7433944 / 1000 / sq (ne / te + ni / ti)) := by
    unfold debyeLength
    rw [div_some hte.ne', Option.bind_some, div_some hti.ne', Option.bind_some]
    unfold pySqrt
    rw [if_neg (not_lt.mpr hd.le), Option.bind_some, div_some (hsq _ hd).ne']
  unfold numbers
  rw [div_some hv.ne', Option.bind_some, div_some hv.ne', Option.bind_some]
  dsimp only
  rw [div_some hv.ne', Option.bind_some, l1, Option.bind_some]
  unfold wakeLength
  rw [l1, Option.bind_some, div_some (hsq _ hw).ne', Option.bind_some, l2, Option.bind_some, div_some (by positivity), Option.bind_some,
    div_some hv.ne', Option.bind_some, div_some hstep.ne', Option.bind_some]

variable [FloorRing K] {b : Beam.Conf K}

/-- C133: what the summary shows of the beam and of the time, in terms of the beam as the program injects it. -/
theorem C133_shown (R : Ready c m p e s) (S : Same p b) (hb : 1 ≤ b.bunches) (sq : K → K) (hsq : ∀ x, 0 < x → 0 < sq x) {pi : K} (hpi : 0 < pi) :
    ∃ i, physInfo sq pi m = some (.info i) ∧ i.steps = (c.time.stop - c.time.start) / c.time.step ∧
      i.velocity = b.velocity ∧ i.radius = b.radius ∧ i.time = Beam.bunchEnd b (b.bunches - 1) - b.start ∧ i.length = i.time * b.velocity ∧
      i.particles = b.bunches * bunchParticles pi b ∧ i.passage = c.geo.sizeZ / b.velocity + i.time ∧
      (b.bunches = 1 → i.bunch = none) ∧
      (1 < b.bunches → ∃ k, i.bunch = some k ∧ k.time = b.length / b.velocity ∧ k.length = b.length ∧ k.bunches = b.bunches ∧
        k.particles = bunchParticles pi b ∧ ∀ j, k.period / b.velocity = Beam.bunchStart b (j + 1) - Beam.bunchStart b j) := by
  have v0 : 0 < b.velocity := S.velocity ▸ R.moves
  have bn : (p.bunches : K) = b.bunches := by rw [← S.bunches]; push_cast; rfl
  have en := info_eq R sq pi
  rw [numbers_eq sq hsq hpi R.densities.1 R.densities.2 R.warm.1 R.warm.2 R.moves R.step, Option.bind_some] at en
  rw [bn, ← S.velocity, ← S.length, ← S.distance, ← S.radius, ← S.density] at en
  refine ⟨_, en, rfl, rfl, rfl, ?_, ?_, ?_, rfl, ?_, ?_⟩
  · dsimp only
    unfold Beam.bunchEnd Beam.bunchStart
    rw [Nat.cast_sub hb]
    push_cast
    field_simp
    ring
  · dsimp only
    field_simp
  · dsimp only
    unfold bunchParticles
    field_simp
  · intro h
    dsimp only
    rw [h, Nat.cast_one, if_neg (lt_irrefl _)]
  · intro h
    dsimp only
    rw [if_pos (by exact_mod_cast h)]
    refine ⟨_, rfl, rfl, rfl, rfl, ?_, ?_⟩
    · dsimp only
      unfold bunchParticles
      field_simp
    · intro j
      dsimp only
      unfold Beam.bunchStart
      push_cast
      field_simp
      ring

/-- C133, the number of steps: for a run that starts at zero and ends later, the loop of the program makes more steps than foretold, by at
most one.  Missing: runs that do not start at zero, see below. -/
theorem C133_steps_partial (R : Ready c m p e s) (h0 : c.time.start = 0) (h1 : 0 ≤ c.time.stop) (sq : K → K) (hsq : ∀ x, 0 < x → 0 < sq x)
    {pi : K} (hpi : 0 < pi) :
    ∃ i u, physInfo sq pi m = some (.info i) ∧ Out.MainLoop (Out.initTime c.time.start c.time.stop c.time.step, 0) u ∧
      i.steps < u.2 ∧ (u.2 : K) ≤ i.steps + 1 := by
  have en := info_eq R sq pi
  rw [numbers_eq sq hsq hpi R.densities.1 R.densities.2 R.warm.1 R.warm.2 R.moves R.step, Option.bind_some] at en
  obtain ⟨u, l, -, k, -⟩ := Out.C43_steps c.time.start c.time.stop c.time.step R.step
  refine ⟨_, u, en, l, ?_, ?_⟩ <;> dsimp only <;> rw [h0, sub_zero]
  all_goals
    have q : 0 ≤ c.time.stop / c.time.step := div_nonneg h1 R.step.le
    have q' : 0 ≤ ⌊c.time.stop / c.time.step⌋ := Int.floor_nonneg.mpr q
    rw [max_eq_right (by omega)] at k
    have k' : (u.2 : K) = ⌊c.time.stop / c.time.step⌋ + 1 := by exact_mod_cast congrArg (Int.cast (R := K)) k
    rw [k']
  · exact Int.lt_floor_add_one _
  · linarith [Int.floor_le (c.time.stop / c.time.step)]

/-- Where C133 fails: a run that is to start later than zero makes all the steps from zero on, more than foretold by the number of steps
until its start. -/
theorem C133_start_fails (R : Ready c m p e s) (h0 : 0 < c.time.start) (h1 : 0 ≤ c.time.stop) (sq : K → K) (hsq : ∀ x, 0 < x → 0 < sq x)
    {pi : K} (hpi : 0 < pi) :
    ∃ i u, physInfo sq pi m = some (.info i) ∧ Out.MainLoop (Out.initTime c.time.start c.time.stop c.time.step, 0) u ∧
      i.steps + c.time.start / c.time.step < u.2 := by
  have en := info_eq R sq pi
  rw [numbers_eq sq hsq hpi R.densities.1 R.densities.2 R.warm.1 R.warm.2 R.moves R.step, Option.bind_some] at en
  obtain ⟨u, l, -, k, -⟩ := Out.C43_steps c.time.start c.time.stop c.time.step R.step
  refine ⟨_, u, en, l, ?_⟩
  dsimp only
  rw [← add_div, sub_add_cancel]
  have q : 0 ≤ c.time.stop / c.time.step := div_nonneg h1 R.step.le
  have q' : 0 ≤ ⌊c.time.stop / c.time.step⌋ := Int.floor_nonneg.mpr q
  rw [max_eq_right (by omega)] at k
  have k' : (u.2 : K) = ⌊c.time.stop / c.time.step⌋ + 1 := by exact_mod_cast congrArg (Int.cast (R := K)) k
  rw [k']
  exact Int.lt_floor_add_one _

variable {pi : K} {g : Geom K} {rnd : Nat → Nat → K × K}

/-- C133, the duration of the beam: particles enter only from the start of the beam on and for the foretold duration, and particles of a
beam of several bunches only during the foretold time of a bunch, the beginnings of bunches being the foretold distance apart. -/
theorem C133_window (R : Ready c m p e s) (S : Same p b) (T : Beam.Setting pi c.time.step b g rnd)
    (rest : Nat → List (Part K) → List (Part K)) (sq : K → K) (hsq : ∀ x, 0 < x → 0 < sq x) (n : Nat) {st : Beam.St K}
    (h : Beam.run pi c.time.step b g rnd rest n = .ok st) :
    ∃ i st' new, physInfo sq pi m = some (.info i) ∧ Beam.manage pi c.time.step b g (n * c.time.step) (rnd n) st = .ok st' ∧
      st'.particles = st.particles ++ new ∧
      (new ≠ [] → p.start ≤ n * c.time.step ∧ n * c.time.step < p.start + i.time ∧
        ∀ k, i.bunch = some k → ∃ j : Nat, j < b.bunches ∧ p.start + j * (k.period / i.velocity) ≤ n * c.time.step ∧
          n * c.time.step < p.start + j * (k.period / i.velocity) + k.time) := by
  obtain ⟨i, hi, -, iv, -, it, -, -, -, i1, ib⟩ := C133_shown R S T.beam.bunches sq hsq T.pi
  obtain ⟨st', new, e1, e2, -, e3⟩ := Beam.C34_window_partial T rest n h
  refine ⟨i, st', new, hi, e1, e2, fun hn => ?_⟩
  obtain ⟨-, -, ⟨k, hk, l, u⟩, -⟩ := e3 hn
  have G := T.beam
  have per : 0 ≤ b.length / b.velocity + b.distance / b.velocity :=
    add_nonneg (div_nonneg G.length.le G.velocity.le) (div_nonneg G.distance G.velocity.le)
  rw [← S.start]
  refine ⟨?_, ?_, ?_⟩
  · refine le_trans ?_ l
    unfold Beam.bunchStart
    have : 0 ≤ (k : K) * (b.length / b.velocity + b.distance / b.velocity) := mul_nonneg (Nat.cast_nonneg _) per
    linarith
  · rw [it]
    refine lt_of_lt_of_le u ?_
    have hle : (k : K) ≤ ((b.bunches - 1 : Nat) : K) := by exact_mod_cast Nat.le_pred_of_lt hk
    have := mul_le_mul_of_nonneg_right hle per
    unfold Beam.bunchEnd Beam.bunchStart
    linarith
  · intro q hq
    refine ⟨k, hk, ?_⟩
    have h1 : 1 < b.bunches := by
      by_contra hc
      have : b.bunches = 1 := le_antisymm (not_lt.mp hc) G.bunches
      rw [i1 this] at hq
      cases hq
    obtain ⟨q', eq', kt, -, -, -, kp⟩ := ib h1
    rw [hq] at eq'
    cases eq'
    have p0 : q.period / b.velocity = b.length / b.velocity + b.distance / b.velocity := by
      rw [kp 0]; unfold Beam.bunchStart; push_cast; ring
    rw [iv, p0, kt]
    exact ⟨l, u⟩

/-- C133, the duration of the beam, the other way round: in the innermost domain particles enter at every step of the foretold time of a
bunch, if the pause between bunches is longer than a step.  Missing: shorter pauses and domains away from the axis, where C34 fails. -/
theorem C133_bunches_partial (R : Ready c m p e s) (S : Same p b) (T : Beam.Setting pi c.time.step b g rnd)
    (rest : Nat → List (Part K) → List (Part K)) (sq : K → K) (hsq : ∀ x, 0 < x → 0 < sq x) (hz : g.z0 = 0) (hr : g.r0 = 0)
    (hgap : c.time.step < b.distance / b.velocity) (hsome : b.bunches ≤ b.amount) (n : Nat) {st : Beam.St K}
    (h : Beam.run pi c.time.step b g rnd rest n = .ok st) :
    ∃ i, physInfo sq pi m = some (.info i) ∧
      ∀ k, i.bunch = some k → ∀ j : Nat, j < b.bunches → p.start + j * (k.period / i.velocity) ≤ n * c.time.step →
        n * c.time.step < p.start + j * (k.period / i.velocity) + k.time →
        ∃ st' new, Beam.manage pi c.time.step b g (n * c.time.step) (rnd n) st = .ok st' ∧ st'.particles = st.particles ++ new ∧ new ≠ [] := by
  obtain ⟨i, hi, -, iv, -, it, -, -, -, i1, ib⟩ := C133_shown R S T.beam.bunches sq hsq T.pi
  refine ⟨i, hi, fun q hq j hj l u => ?_⟩
  have G := T.beam
  have h1 : 1 < b.bunches := by
    by_contra hc
    have : b.bunches = 1 := le_antisymm (not_lt.mp hc) G.bunches
    rw [i1 this] at hq
    cases hq
  obtain ⟨q', eq', kt, -, -, -, kp⟩ := ib h1
  rw [hq] at eq'
  cases eq'
  have p0 : q.period / b.velocity = b.length / b.velocity + b.distance / b.velocity := by
    rw [kp 0]; unfold Beam.bunchStart; push_cast; ring
  rw [iv, p0, ← S.start] at l u
  rw [kt] at u
  obtain ⟨st', new, e1, e2, -, e3, -⟩ := Beam.C34_complete_partial T rest hz hr hgap n h j ⟨hj, l, u⟩
  refine ⟨st', new, e1, e2, ?_⟩
  rintro rfl
  have : 0 < Beam.macroPerStep b g c.time.step := by
    unfold Beam.macroPerStep
    have a1 : 0 < b.amount / b.bunches := Nat.div_pos hsome G.bunches
    have a2 : (0 : K) < ((b.amount / b.bunches : Nat) : K) := by exact_mod_cast a1
    have a3 : 0 < Beam.beamEdge b g - g.r0 * g.dr := by
      unfold Beam.beamEdge
      rw [hr]
      push_cast
      rw [zero_mul, sub_zero, zero_add]
      have : (1 : K) ≤ g.nr := by exact_mod_cast T.nr
      exact lt_min G.radius (mul_pos (by linarith) T.geom.dr)
    exact mul_pos (mul_pos a2 (div_pos a3 G.radius)) (div_pos T.dt (div_pos G.length G.velocity))
  simp at e3
  linarith

/-- C133, the passage: a particle that entered and flies on undisturbed has crossed the chamber when the foretold time of passage after the
start of the beam is over. -/
theorem C133_passage (R : Ready c m p e s) (S : Same p b) (T : Beam.Setting pi c.time.step b g rnd)
    (rest : Nat → List (Part K) → List (Part K)) (sq : K → K) (hsq : ∀ x, 0 < x → 0 < sq x) (n : Nat) {st : Beam.St K}
    (h : Beam.run pi c.time.step b g rnd rest n = .ok st) :
    ∃ i st' new, physInfo sq pi m = some (.info i) ∧ Beam.manage pi c.time.step b g (n * c.time.step) (rnd n) st = .ok st' ∧
      st'.particles = st.particles ++ new ∧
      ∀ q ∈ new, c.geo.sizeZ < q.posZ + q.velZ * (p.start + i.passage - n * c.time.step) := by
  obtain ⟨i, hi, -, iv, -, it, -, -, ip, i1, ib⟩ := C133_shown R S T.beam.bunches sq hsq T.pi
  obtain ⟨i', st', new, hi', e1, e2, w⟩ := C133_window R S T rest sq hsq n h
  obtain ⟨st2, new2, f1, f2, fr, -⟩ := Beam.C34_window_partial T rest n h
  rw [hi] at hi'
  cases hi'
  rw [e1] at f1
  cases f1
  rw [e2] at f2
  have := List.append_cancel_left f2
  subst this
  refine ⟨i, st', new, hi, e1, e2, fun q hq => ?_⟩
  obtain ⟨-, u, -⟩ := w (List.ne_nil_of_mem hq)
  have F := fr q hq
  have v0 := T.beam.velocity
  rw [F.velZ, ip]
  have dz := T.geom.dz
  have z := F.zlo
  have e : b.velocity * (p.start + (c.geo.sizeZ / b.velocity + i.time) - n * c.time.step) =
      c.geo.sizeZ + b.velocity * (p.start + i.time - n * c.time.step) := by
    have : b.velocity * (c.geo.sizeZ / b.velocity) = c.geo.sizeZ := mul_div_cancel₀ _ v0.ne'
    linear_combination this
  rw [e]
  have := mul_pos v0 (show 0 < p.start + i.time - n * c.time.step by linarith)
  linarith

/-- How many real particles an injected macroparticle stands for. -/
theorem weight_eq (T : Beam.Setting pi c.time.step b g rnd) {u : K × K} {q : Part K}
    (hr : g.dr / 2 ≤ q.posR) (h : Beam.injectOne pi c.time.step b g u = .ok q) :
    q.weight = b.bunches * bunchParticles pi b / b.amount * (2 * q.posR / b.radius) := by
  have hpi := T.pi
  have dr := T.geom.dr
  have dz := T.geom.dz
  have R0 := T.beam.radius
  unfold Beam.injectOne at h
  dsimp only at h
  obtain ⟨r, -, h⟩ := bind_iff.mp h
  obtain ⟨z, -, h⟩ := bind_iff.mp h
  cases h
  dsimp only [Place.newPart] at hr ⊢
  unfold bunchParticles
  generalize Beam.domainRadius b g * u.1 + g.dr / 2 + g.r0 * g.dr = x at hr ⊢
  split_ifs with hx
  · field_simp
  · have : x = g.dr / 2 := le_antisymm (not_lt.mp hx) hr
    subst this
    field_simp
    ring

/-- The total of a step. -/
theorem total_eq (T : Beam.Setting pi c.time.step b g rnd) {l : List (Part K)}
    (h : ∀ q ∈ l, q.weight = b.bunches * bunchParticles pi b / b.amount * (2 * q.posR / b.radius)) :
    real l = b.bunches * bunchParticles pi b / b.amount * (2 / b.radius) * (l.map fun q => q.posR).sum := by
  unfold real
  induction l with
  | nil => simp
  | cons q l ih =>
    rw [List.map_cons, List.sum_cons, List.map_cons, List.sum_cons, ih fun q hq => h q (by simp [hq]), h q (by simp)]
    ring

theorem collect_from {α : Type _} (f : Nat → Res α) (l : List Nat) {as : List α} (h : Beam.collect (l.map f) = .ok as) :
    ∀ a ∈ as, ∃ i, f i = .ok a := by
  induction l generalizing as with
  | nil => cases h; simp
  | cons i l ih =>
    rw [List.map_cons, Beam.collect] at h
    obtain ⟨a, ha, h⟩ := bind_iff.mp h
    obtain ⟨bs, hb, h⟩ := bind_iff.mp h
    cases h
    intro x hx
    rcases List.mem_cons.mp hx with rfl | hx
    · exact ⟨i, ha⟩
    · exact ih hb x hx

/-- What a step injects comes from `injectOne`. -/
theorem manage_from {t : K} {n : Nat} {st st' : Beam.St K} {new : List (Part K)}
    (h : Beam.manage pi c.time.step b g t (rnd n) st = .ok st') (e : st'.particles = st.particles ++ new) :
    ∀ q ∈ new, ∃ i, Beam.injectOne pi c.time.step b g (rnd n i) = .ok q := by
  have nil : st'.particles = st.particles → ∀ q ∈ new, ∃ i, Beam.injectOne pi c.time.step b g (rnd n i) = .ok q := by
    intro e'
    rw [e'] at e
    have := List.self_eq_append_right.mp e
    subst this
    simp
  unfold Beam.manage at h
  split at h
  · unfold Beam.inject at h
    split at h
    · dsimp only at h
      obtain ⟨s1, h1, h⟩ := bind_iff.mp h
      have es : st'.particles = s1.particles := by
        cases h
        split <;> rfl
      split at h1
      · obtain ⟨l, hl, h1⟩ := bind_iff.mp h1
        cases h1
        rw [es] at e
        have := List.append_cancel_left e
        subst this
        exact collect_from (fun i => Beam.injectOne pi c.time.step b g (rnd n i)) _ hl
      · cases h1
        exact nil es
    · cases h
      exact nil rfl
  · cases h
    exact nil rfl

/-- C133, the number of particles: in a chamber of one domain, if the macroparticles can be divided evenly among bunches and steps, and if
the radii drawn in a step have the mean value of half the radius of the beam, as many real particles enter per time as foretold: the
foretold number during the time all the bunches take.  Missing: other numbers of macroparticles and other random numbers, see below. -/
theorem C133_number_partial (R : Ready c m p e s) (S : Same p b) (T : Beam.Setting pi c.time.step b g rnd)
    (rest : Nat → List (Part K) → List (Part K)) (sq : K → K) (hsq : ∀ x, 0 < x → 0 < sq x) (hz : g.z0 = 0) (hr : g.r0 = 0)
    (hin : b.radius ≤ g.nr * g.dr) (hdiv : b.bunches ∣ b.amount) (hwhole : ∃ k : Nat, (b.amount / b.bunches : Nat) * (c.time.step / (b.length / b.velocity)) = (k : K))
    (n : Nat) {st st' : Beam.St K} {new : List (Part K)} (h : Beam.run pi c.time.step b g rnd rest n = .ok st)
    (h' : Beam.manage pi c.time.step b g (n * c.time.step) (rnd n) st = .ok st') (hnew : st'.particles = st.particles ++ new) (hn : new ≠ [])
    (hmean : (new.map fun q => q.posR).sum = new.length * (b.radius / 2)) :
    ∃ i, physInfo sq pi m = some (.info i) ∧ real new * (b.bunches * (b.length / b.velocity)) = i.particles * c.time.step := by
  obtain ⟨i, hi, -, -, -, -, -, ipart, -⟩ := C133_shown R S T.beam.bunches sq hsq T.pi
  refine ⟨i, hi, ?_⟩
  obtain ⟨st2, new2, f1, f2, fr, w⟩ := Beam.C34_window_partial T rest n h
  rw [h'] at f1
  cases f1
  rw [hnew] at f2
  have := List.append_cancel_left f2
  subst this
  obtain ⟨-, -, -, lo, hi'⟩ := w hn
  have tot := total_eq T (l := new) fun q hq => by
    obtain ⟨j, hj⟩ := manage_from h' hnew q hq
    refine weight_eq T ?_ hj
    have := (fr q hq).rlo
    rw [hr] at this
    simpa using this
  have R0 := T.beam.radius
  have L0 := T.beam.length
  have v0 := T.beam.velocity
  have a0 : (0 : K) < b.amount := by exact_mod_cast T.beam.amount
  have n0 : (0 : K) < b.bunches := by exact_mod_cast T.beam.bunches
  have edge : Beam.beamEdge b g = b.radius := by
    unfold Beam.beamEdge
    rw [hr, Nat.zero_add]
    exact min_eq_left hin
  have mp : Beam.macroPerStep b g c.time.step = (b.amount / b.bunches : Nat) * (c.time.step / (b.length / b.velocity)) := by
    unfold Beam.macroPerStep
    rw [edge, hr]
    push_cast
    rw [zero_mul, sub_zero, div_self R0.ne', mul_one]
  obtain ⟨k, hk⟩ := hwhole
  rw [mp, hk] at lo hi'
  have len : new.length = k := by
    have l1 : k ≤ new.length := by exact_mod_cast lo
    have l2 : new.length < k + 1 := by exact_mod_cast hi'
    omega
  rw [tot, hmean, len, ipart, ← hk, Nat.cast_div hdiv n0.ne']
  field_simp

/-- Where C133 fails: a beam with fewer macroparticles than bunches does not inject anything, whatever is foretold. -/
theorem C133_few_fails (R : Ready c m p e s) (S : Same p b) (T : Beam.Setting pi c.time.step b g rnd)
    (rest : Nat → List (Part K) → List (Part K)) (sq : K → K) (hsq : ∀ x, 0 < x → 0 < sq x) (hfew : b.amount < b.bunches) (n : Nat)
    {st : Beam.St K} (h : Beam.run pi c.time.step b g rnd rest n = .ok st) :
    ∃ i st', physInfo sq pi m = some (.info i) ∧ 0 < i.particles ∧
      Beam.manage pi c.time.step b g (n * c.time.step) (rnd n) st = .ok st' ∧ st'.particles = st.particles := by
  obtain ⟨i, hi, -, -, -, -, -, ipart, -⟩ := C133_shown R S T.beam.bunches sq hsq T.pi
  obtain ⟨st', new, f1, f2, fr, w⟩ := Beam.C34_window_partial T rest n h
  refine ⟨i, st', hi, ?_, f1, ?_⟩
  · rw [ipart]
    unfold bunchParticles
    have n0 : (0 : K) < b.bunches := by exact_mod_cast T.beam.bunches
    exact mul_pos n0 (mul_pos T.density (mul_pos (mul_pos T.pi (pow_pos T.beam.radius 2)) T.beam.length))
  · by_cases hn : new = []
    · rw [f2, hn, List.append_nil]
    · exfalso
      obtain ⟨-, -, -, -, u⟩ := w hn
      unfold Beam.macroPerStep at u
      rw [Nat.div_eq_of_lt hfew] at u
      simp only [Nat.cast_zero, zero_mul, zero_add] at u
      have : new.length < 1 := by exact_mod_cast u
      exact hn (List.length_eq_zero_iff.mp (by omega))

/-- Where C133 fails: without a species with the name of electrons (`electron` is not enough, nor is the mass of electrons) there is no
summary. -/
theorem C133_electrons_fails (hs : Shows c m) (h : ∀ t ∈ c.species, t.name.map Char.toLower ≠ "electrons".toList) (sq : K → K) (pi : K) :
    physInfo sq pi m = none := by
  obtain ⟨f, e, -, h1, -⟩ := scanAll_spec hs.species ⟨none, none⟩
  unfold physInfo
  rw [e, Option.bind_some, h1 h]
  rfl

/-- Where C133 fails: a run without beams has no summary, not even of its plasma. -/
theorem C133_beams_fails (hs : Shows c m) (h : c.beams = []) (sq : K → K) (pi : K) (i : Info K) : physInfo sq pi m ≠ some (.info i) := by
  have e : m.beams = [] := by
    have := hs.beams
    rw [h] at this
    exact List.forall₂_nil_left_iff.1 this
  intro hp
  unfold physInfo at hp
  rw [e] at hp
  obtain ⟨f, -, hp⟩ := Option.bind_eq_some_iff.1 hp
  obtain ⟨el, -, hp⟩ := Option.bind_eq_some_iff.1 hp
  by_cases z : el.1 = 0
  · rw [if_pos z] at hp
    cases hp
  rw [if_neg z] at hp
  obtain ⟨io, -, hp⟩ := Option.bind_eq_some_iff.1 hp
  by_cases z : io.1 = 0
  · rw [if_pos z] at hp
    cases hp
  rw [if_neg z] at hp
  cases hp

/-- Where C133 fails: nothing but the first beam is summed up. -/
theorem C133_first_fails (l : List (MBeam K)) (sq : K → K) (pi : K) (hm : m.beams ≠ []) :
    physInfo sq pi { m with beams := m.beams ++ l } = physInfo sq pi m := by
  unfold physInfo
  dsimp only
  rw [List.head?_append_of_ne_nil _ hm]

end

section
variable {c : Config.Conf ℝ} {m : Meta ℝ} {p : BeamData ℝ} {e s : Species.Specie ℝ} {b : Beam.Conf ℝ} {pi : ℝ} {g : Geom ℝ}

/-- Where C133 fails: with random numbers that are evenly distributed the mean number of real particles of a macroparticle is larger than its
share of the foretold number, by the ratio of a cell to the radius of the beam. -/
theorem C133_mean_fails (R : Ready c m p e s) (S : Same p b) (z : ℝ) (T : ∀ u, 0 ≤ u → u < 1 → Beam.Setting pi c.time.step b g fun _ _ => (u, z))
    (hz : g.z0 = 0) (hr : g.r0 = 0) (hin : b.radius ≤ g.nr * g.dr) :
    ∃ (i : Info ℝ) (w : ℝ → ℝ), physInfo Real.sqrt pi m = some (.info i) ∧
      (∀ u, 0 ≤ u → u < 1 → ∃ q, Beam.injectOne pi c.time.step b g (u, z) = .ok q ∧ q.weight = w u) ∧
      ∫ u in (0 : ℝ)..1, w u = i.particles / b.amount * (1 + g.dr / b.radius) := by
  have T0 := T 0 le_rfl one_pos
  obtain ⟨i, hi, -, -, -, -, -, ipart, -⟩ := C133_shown R S T0.beam.bunches Real.sqrt (fun x hx => Real.sqrt_pos.mpr hx) T0.pi
  have R0 := T0.beam.radius
  have edge : Beam.beamEdge b g = b.radius := by
    unfold Beam.beamEdge
    rw [hr, Nat.zero_add]
    exact min_eq_left hin
  refine ⟨i, fun u => b.bunches * bunchParticles pi b / b.amount * (2 * (b.radius * u + g.dr / 2) / b.radius), hi, ?_, ?_⟩
  · intro u u0 u1
    obtain ⟨q, e1, f, r, -⟩ := Beam.injectOne_ok (T u u0 u1) hz (by rw [hr]; simpa using R0) 0 0
    refine ⟨q, e1, ?_⟩
    have lo := f.rlo
    rw [hr] at lo
    simp only [Nat.cast_zero, zero_mul, zero_add] at lo
    rw [weight_eq (T u u0 u1) lo e1, r, edge, hr]
    simp
  · have : (fun u : ℝ => b.bunches * bunchParticles pi b / b.amount * (2 * (b.radius * u + g.dr / 2) / b.radius)) =
        fun u : ℝ => (b.bunches * bunchParticles pi b / b.amount) * (2 * u + g.dr / b.radius) := by
      funext u
      field_simp
    have c1 : IntervalIntegrable (fun u : ℝ => 2 * u) MeasureTheory.volume 0 1 := (continuous_const.mul continuous_id).intervalIntegrable _ _
    have c2 : IntervalIntegrable (fun _ : ℝ => g.dr / b.radius) MeasureTheory.volume 0 1 := continuous_const.intervalIntegrable _ _
    rw [this, intervalIntegral.integral_const_mul, intervalIntegral.integral_add c1 c2,
      intervalIntegral.integral_const_mul, integral_id, intervalIntegral.integral_const, ipart]
    simp

/-- C133, the plasma frequency: the foretold one, as an angular frequency, is larger than the one the program checks the time step
against, by less than three thousandths. -/
theorem C133_frequency (R : Ready c m p e s) (hpi : 0 < pi) :
    ∃ i, physInfo Real.sqrt pi m = some (.info i) ∧
      Limits.plasmaFrequency (563803 / 10000) ((e.left + e.right) / 2) < 2 * pi * i.frequency ∧
      2 * pi * i.frequency < Limits.plasmaFrequency (563803 / 10000) ((e.left + e.right) / 2) * (1 + 3 / 1000) ∧
      i.wake * i.frequency = p.velocity := by
  have en := info_eq R Real.sqrt pi
  rw [numbers_eq Real.sqrt (fun x hx => Real.sqrt_pos.mpr hx) hpi R.densities.1 R.densities.2 R.warm.1 R.warm.2 R.moves R.step,
    Option.bind_some] at en
  have n0 := R.densities.1
  refine ⟨_, en, ?_, ?_, ?_⟩ <;> dsimp only
  · generalize (e.left + e.right) / 2 = d at n0
    rw [mul_div_cancel₀ _ (by positivity)]
    unfold Limits.plasmaFrequency
    rw [Real.lt_sqrt (by positivity), mul_pow, Real.sq_sqrt n0.le, mul_comm, mul_div_assoc]
    exact mul_lt_mul_of_pos_left (by norm_num) n0
  · generalize (e.left + e.right) / 2 = d at n0
    rw [mul_div_cancel₀ _ (by positivity)]
    unfold Limits.plasmaFrequency
    rw [Real.sqrt_lt (by positivity) (by positivity), mul_pow, mul_pow, Real.sq_sqrt n0.le, mul_div_assoc, mul_comm _ d, mul_assoc]
    exact mul_lt_mul_of_pos_left (by norm_num) n0
  · generalize hd : (e.left + e.right) / 2 * (-(16 / 10 ^ 20)) ^ 2 / (91 / 10 ^ 32 * (88 / 10 ^ 13)) = d
    have d0 : 0 < d := by rw [← hd]; positivity
    have := (Real.sqrt_pos.mpr d0).ne'
    field_simp

/-- C133, the Debye length: the foretold one is that of the formula of the program, given the temperatures in the right order. -/
theorem C133_debye_partial (R : Ready c m p e s) (hpi : 0 < pi) :
    ∃ i, physInfo Real.sqrt pi m = some (.info i) ∧
      Limits.debyeLength (7433944 / 1000) ((e.left + e.right) / 2) ((s.left + s.right) / 2) e.temperature s.temperature = .ok i.debye := by
  have en := info_eq R Real.sqrt pi
  rw [numbers_eq Real.sqrt (fun x hx => Real.sqrt_pos.mpr hx) hpi R.densities.1 R.densities.2 R.warm.1 R.warm.2 R.moves R.step,
    Option.bind_some] at en
  refine ⟨_, en, ?_⟩
  unfold Limits.debyeLength
  rw [if_neg (not_le.mpr R.densities.1), if_neg (not_le.mpr R.densities.2), if_neg]
  rintro (h | h)
  · exact R.warm.1.ne' h
  · exact R.warm.2.ne' h

/-- Where C133 fails: the program itself uses the temperatures in the wrong order, so it works with another length whenever both the
densities and the temperatures of electrons and ions differ. -/
theorem C133_debye_fails (R : Ready c m p e s) (hpi : 0 < pi) (hn : (e.left + e.right) / 2 ≠ (s.left + s.right) / 2)
    (ht : e.temperature ≠ s.temperature) :
    ∃ i x, physInfo Real.sqrt pi m = some (.info i) ∧
      Limits.debyeLength (7433944 / 1000) ((e.left + e.right) / 2) ((s.left + s.right) / 2) s.temperature e.temperature = .ok x ∧
      x ≠ i.debye := by
  have en := info_eq R Real.sqrt pi
  rw [numbers_eq Real.sqrt (fun x hx => Real.sqrt_pos.mpr hx) hpi R.densities.1 R.densities.2 R.warm.1 R.warm.2 R.moves R.step,
    Option.bind_some] at en
  have n0 := R.densities.1
  have n1 := R.densities.2
  have t0 := R.warm.1
  have t1 := R.warm.2
  refine ⟨_, 7433944 / 1000 / Real.sqrt ((e.left + e.right) / 2 / s.temperature + (s.left + s.right) / 2 / e.temperature), en, ?_, ?_⟩
  · unfold Limits.debyeLength
    rw [if_neg (not_le.mpr n0), if_neg (not_le.mpr n1), if_neg]
    rintro (h | h)
    · exact t1.ne' h
    · exact t0.ne' h
  · dsimp only
    generalize (e.left + e.right) / 2 = ne at *
    generalize (s.left + s.right) / 2 = ni at *
    generalize e.temperature = te at *
    generalize s.temperature = ti at *
    intro h
    have p1 : 0 < ne / ti + ni / te := by positivity
    have p2 : 0 < ne / te + ni / ti := by positivity
    have q1 := Real.sqrt_pos.mpr p1
    have q2 := Real.sqrt_pos.mpr p2
    rw [div_eq_div_iff q1.ne' q2.ne'] at h
    have h2 := mul_left_cancel₀ (by norm_num) h
    have h3 : ne / te + ni / ti = ne / ti + ni / te := by
      rw [← Real.sq_sqrt p1.le, ← Real.sq_sqrt p2.le, h2]
    have h4 : (ne - ni) * (ti - te) = 0 := by
      field_simp at h3
      linear_combination h3
    rcases mul_eq_zero.mp h4 with h | h
    · exact hn (sub_eq_zero.mp h)
    · exact ht (sub_eq_zero.mp h).symm

end

/-! ### Concrete cases -/

section
variable {K : Type} [Field K] [LinearOrder K] [IsStrictOrderedRing K]

/-- Electrons, ions and a beam of three bunches. -/
def exConf (K : Type) [Field K] : Config.Conf K :=
  { log := [], total := 512, ratio := 1,
    geo := ⟨3 / 2, 8, 3, 32, 1 / 2, 1 / 4, 3, 32, 0, 0, 0, 1, 1⟩, sigma1 := 1, sigma2 := 2, time := ⟨0, 10, 1 / 8, 0⟩,
    species := [⟨1, "Electrons".toList, 1, -1, 100, 200, 1⟩, ⟨2, "ions".toList, 1836, 1, 100, 100, 1 / 10⟩],
    beams := [⟨5, "beam_e".toList, 1, -1, 0, 1, 3, 2, 4, 3 / 2, 3, [], []⟩],
    amounts := ([200, 200], [99]), root := ['.'], compress := false, level := 1, probes := [], electric := none, magnetic := none }

/-- What the reader shows of it. -/
def exMeta (K : Type) [Field K] : Meta K :=
  { sizeR := .num (3 / 2), sizeZ := .num 8, gridR := .num 3, gridZ := .num 32, domR := .num 1, domZ := .num 1, pml := [],
    start := .num 0, stop := .num 10, step := .num (1 / 8),
    species := [⟨.str "Electrons".toList, 1000000, .num 100, .num 200, .num 1, .num (-1), .num 1⟩,
      ⟨.str "ions".toList, 1000000, .num 100, .num 100, .num (1 / 10), .num 1, .num 1836⟩],
    beams := [⟨.str ['e'], 1000000, .num 1, .num (-1), .num 1, .num 0, .num 3, .num 3, .num 4, .num (3 / 2), .num 2⟩],
    base := .null, root := ['.'], compress := .bool false, level := .num 1, probes := [], plot := [] }

def exBeam (K : Type) [Field K] : BeamData K := ⟨5, "beam_e".toList, 1, -1, 0, 1, 3, 2, 4, 3 / 2, 3, [], []⟩
def exB (K : Type) [Field K] : Beam.Conf K := ⟨5, 96, 0, 3 / 2, 3, 3, 4, 2, 1⟩
def exG (K : Type) [Field K] : Geom K := ⟨1 / 2, 1 / 4, 0, 0, 3, 32⟩

theorem cut_int (n : Int) (x : K) (h : x = n) : Cut x n := by
  subst h
  unfold Cut
  split <;> constructor <;> simp

theorem ex_shows : Shows (exConf K) (exMeta K) where
  sizeR := rfl
  sizeZ := rfl
  gridR := ⟨_, rfl, cut_int _ _ (by norm_num [exConf])⟩
  gridZ := ⟨_, rfl, cut_int _ _ (by norm_num [exConf])⟩
  start := rfl
  stop := rfl
  step := rfl
  species := by
    refine .cons ⟨rfl, rfl, rfl, rfl, ⟨_, rfl, cut_int _ _ (by norm_num)⟩, 1, ⟨_, rfl, cut_int _ _ (by norm_num)⟩, by dsimp only; decide⟩
      (.cons ⟨rfl, rfl, rfl, rfl, ⟨_, rfl, cut_int _ _ (by norm_num)⟩, 1836, ⟨_, rfl, cut_int _ _ (by norm_num)⟩, by dsimp only; decide⟩ .nil)
  beams := by
    refine .cons ⟨⟨_, rfl, by dsimp only; decide⟩, rfl, ⟨_, rfl, cut_int _ _ (by norm_num)⟩, ⟨1, ⟨_, rfl, cut_int _ _ (by norm_num)⟩, by dsimp only; decide⟩, rfl, rfl,
      ⟨_, rfl, cut_int _ _ (by norm_num)⟩, rfl, rfl, rfl⟩ .nil
  root := rfl
  compress := rfl
  level := ⟨_, rfl, cut_int _ _ (by norm_num [exConf])⟩
  probes := .nil

theorem ex_ready : Ready (exConf K) (exMeta K) (exBeam K) ⟨1, "Electrons".toList, 1, -1, 100, 200, 1⟩ ⟨2, "ions".toList, 1836, 1, 100, 100, 1 / 10⟩ where
  shows_ := ex_shows
  electrons := ⟨[], _, rfl, by dsimp only; decide, by intro t ht; simp only [List.mem_singleton] at ht; subst ht; dsimp only; decide⟩
  ions := ⟨[_], [], rfl, by dsimp only; decide, by simp⟩
  densities := ⟨by norm_num, by norm_num⟩
  warm := ⟨by norm_num, by norm_num⟩
  first := rfl
  whole := ⟨_, rfl, by norm_num [exBeam]⟩
  moves := by norm_num [exBeam]
  step := by norm_num [exConf]

theorem ex_same : Same (exBeam K) (exB K) := ⟨rfl, rfl, rfl, rfl, rfl, rfl, rfl⟩

theorem ex_setting [FloorRing K] (u v : K) (hu : 0 ≤ u ∧ u < 1) (hv : 0 ≤ v ∧ v < 1) :
    Beam.Setting 3 (exConf K).time.step (exB K) (exG K) fun _ _ => (u, v) :=
  ⟨by norm_num, by norm_num [exConf], ⟨by norm_num [exB], by norm_num [exB], by norm_num [exB], by norm_num [exB], by norm_num [exB], by simp [exB], by simp [exB]⟩,
    by norm_num [exB], ⟨by norm_num [exG], by norm_num [exG], by simp [exG], by simp [exG]⟩, by simp [exG], by norm_num [exG],
    fun _ _ => ⟨hu.1, hu.2, hv.1, hv.2⟩⟩

end

/-- Three bunches of 4 with pauses of 2 at velocity 1 take 16. -/
example : ∃ i, physInfo Real.sqrt 3 (exMeta ℝ) = some (.info i) ∧ i.time = 16 ∧ i.steps = 80 ∧ i.passage = 24 := by
  obtain ⟨i, h, h1, -, -, h2, -, -, h3, -⟩ := C133_shown (ex_ready (K := ℝ)) ex_same (by simp [exB]) Real.sqrt (fun x hx => Real.sqrt_pos.mpr hx)
    (pi := 3) (by norm_num)
  have t : i.time = 16 := by rw [h2]; norm_num [Beam.bunchEnd, Beam.bunchStart, exB]
  refine ⟨i, h, t, by rw [h1]; norm_num [exConf], by rw [h3, t]; norm_num [exConf, exB]⟩

example := C133_steps_partial (ex_ready (K := ℝ)) rfl (by norm_num [exConf]) Real.sqrt (fun x hx => Real.sqrt_pos.mpr hx) (pi := 3) (by norm_num)
example := C133_frequency ex_ready (pi := 3) (by norm_num)
example := C133_debye_partial ex_ready (pi := 3) (by norm_num)
example := C133_debye_fails ex_ready (pi := 3) (by norm_num) (by norm_num) (by norm_num)
example := C133_mean_fails (pi := 3) (g := exG ℝ) ex_ready ex_same (1 / 2) (fun u h h' => ex_setting u (1 / 2) ⟨h, h'⟩ (by norm_num)) rfl rfl
  (by norm_num [exG, exB])

/-- A run in which the radii drawn have the right mean: `32` macroparticles per bunch, one per step, all at half the radius. -/
example (n : Nat) {st st' : Beam.St ℚ} {new : List (Part ℚ)}
    (h : Beam.run 3 (1 / 8) (exB ℚ) (exG ℚ) (fun _ _ => (1 / 3, 0)) (fun _ l => l) n = .ok st)
    (h' : Beam.manage 3 (1 / 8) (exB ℚ) (exG ℚ) (n * (1 / 8)) (fun _ => (1 / 3, 0)) st = .ok st') (hn : st'.particles = st.particles ++ new)
    (h0 : new ≠ []) :
    ∃ i, physInfo id 3 (exMeta ℚ) = some (.info i) ∧ real new * (3 * (4 / 1)) = i.particles * (1 / 8) := by
  have T := ex_setting (K := ℚ) (1 / 3) 0 ⟨by norm_num, by norm_num⟩ ⟨by norm_num, by norm_num⟩
  refine C133_number_partial (rnd := fun _ _ => (1 / 3, 0)) ex_ready ex_same T (fun _ l => l) id (fun x hx => hx) rfl rfl (by norm_num [exG, exB]) (by simp [exB])
    ⟨1, by norm_num [exB, exConf]⟩ n h h' hn h0 ?_
  have key : ∀ q ∈ new, q.posR = 3 / 4 := by
    intro q hq
    obtain ⟨i, hi⟩ := manage_from (c := exConf ℚ) (rnd := fun _ _ => ((1 / 3 : ℚ), (0 : ℚ))) (n := n) h' hn q hq
    obtain ⟨q', e, -, r, -⟩ := Beam.injectOne_ok T rfl (by norm_num [exG, exB]) n i
    rw [e] at hi
    cases hi
    rw [r]
    norm_num [exG, exB, Beam.beamEdge]
  clear hn h0
  induction new with
  | nil => simp
  | cons q l ih =>
    rw [List.map_cons, List.sum_cons, ih fun q hq => key q (by simp [hq]), key q (by simp)]
    simp [exB]
    ring

/-- A beam of two macroparticles in three bunches. -/
example := fun st => C133_few_fails (b := { exB ℚ with amount := 2 }) (pi := 3) (g := exG ℚ) (rnd := fun _ _ => (1 / 2, 1 / 2)) ex_ready
  ⟨rfl, rfl, rfl, rfl, rfl, rfl, rfl⟩
  ⟨by norm_num, by norm_num [exConf], ⟨by norm_num [exB], by norm_num [exB], by norm_num [exB], by norm_num [exB], by norm_num [exB], by simp [exB], by simp⟩,
    by norm_num [exB], ⟨by norm_num [exG], by norm_num [exG], by simp [exG], by simp [exG]⟩, by simp [exG], by norm_num [exG],
    fun _ _ => by norm_num⟩ (fun _ l => l) id (fun x hx => hx) (by simp [exB]) 5 (st := st)

/-- Bunches that enter. -/
example : ∃ st, Beam.run 3 (1 / 8) (exB ℚ) (exG ℚ) (fun _ _ => (1 / 3, 0)) (fun _ l => l) 50 = .ok st ∧
    ∃ i st' new, physInfo id 3 (exMeta ℚ) = some (.info i) ∧
      Beam.manage 3 (1 / 8) (exB ℚ) (exG ℚ) ((50 : Nat) * (1 / 8)) (fun _ => (1 / 3, 0)) st = .ok st' ∧ st'.particles = st.particles ++ new ∧ new ≠ [] := by
  have T := ex_setting (K := ℚ) (1 / 3) 0 ⟨by norm_num, by norm_num⟩ ⟨by norm_num, by norm_num⟩
  obtain ⟨st, e, -⟩ := Beam.C34_counter T (fun _ l => l) 50
  obtain ⟨i, hi, h⟩ := C133_bunches_partial ex_ready ex_same T (fun _ l => l) id (fun x hx => hx) rfl rfl (by norm_num [exB, exConf]) (by simp [exB]) 50 e
  obtain ⟨i', hi', -, iv, -, -, -, -, -, -, ib⟩ := C133_shown ex_ready (ex_same (K := ℚ)) (by simp [exB]) id (fun x hx => hx) (pi := 3) (by norm_num)
  rw [hi] at hi'
  cases hi'
  obtain ⟨k, hk, kt, -, -, -, kp⟩ := ib (by simp [exB])
  have per := kp 0
  rw [← iv] at per
  obtain ⟨st', new, a, b, c⟩ := h k hk 1 (by simp [exB]) (by rw [per]; norm_num [Beam.bunchStart, exB, exBeam, exConf])
    (by rw [per, kt]; norm_num [Beam.bunchStart, exB, exBeam, exConf])
  exact ⟨st, e, i, st', new, hi, a, b, c⟩

/-- Electrons named otherwise. -/
example (sq : ℚ → ℚ) (pi : ℚ) : physInfo sq pi { exMeta ℚ with species := [⟨.str "Electron".toList, 1000000, .num 100, .num 200, .num 1, .num (-1), .num 1⟩] } = none := by
  refine C133_electrons_fails (c := { exConf ℚ with species := [⟨1, "Electron".toList, 1, -1, 100, 200, 1⟩] }) ?_ ?_ sq pi
  · exact {
      ex_shows (K := ℚ) with
      species := .cons ⟨rfl, rfl, rfl, rfl, ⟨_, rfl, cut_int _ _ (by norm_num)⟩, 1, ⟨_, rfl, cut_int _ _ (by norm_num)⟩, by decide⟩ .nil }
  · intro t ht
    simp only [List.mem_singleton] at ht
    subst ht
    decide

end PhysInfo
end Pico
