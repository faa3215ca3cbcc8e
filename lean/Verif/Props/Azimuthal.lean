import Verif.Props.Current
import Mathlib.Tactic.LinearCombination

/-! # C57 — the azimuthal current of a particle -/

set_option linter.unusedSimpArgs false
set_option linter.unusedVariables false
set_option linter.unusedSectionVars false

namespace Pico
namespace VB

open Yee

variable {K : Type _} [Field K] [LinearOrder K] [IsStrictOrderedRing K] [FloorRing K]

/-- Radius of the middle of the path of a particle. -/
def Part.midR (p : Part K) : K := (p.r + p.rOld) / 2
/-- Axial position of the middle of the path of a particle. -/
def Part.midZ (p : Part K) : K := (p.z + p.zOld) / 2

/-- The volume by which the current at the node of row `a` of the whole area is divided, for a particle
in cell row `i`: the ring from `i dr` to `(i+1) dr` for the inner node, the ring from `(i+1/2) dr` to
`(i+3/2) dr` for the outer one. -/
def usedVolume (pi : K) (g : Geom K) (i a : Int) : K :=
  if a = i then cellRing pi g.dr g.dz i else nodeRing pi g.dr g.dz a

theorem mid_in_cell {g : Geom K} (hg : g.Good) {p : Part K} (hs : p.SameCell g) :
    ((⌊p.r / g.dr⌋ : K) * g.dr ≤ p.midR ∧ p.midR ≤ ((⌊p.r / g.dr⌋ : K) + 1) * g.dr) ∧
    ((⌊p.z / g.dz⌋ : K) * g.dz ≤ p.midZ ∧ p.midZ ≤ ((⌊p.z / g.dz⌋ : K) + 1) * g.dz) := by
  obtain ⟨a1, a2⟩ := floor_cell hg.dr p.r
  obtain ⟨b1, b2⟩ := floor_cell hg.dr p.rOld
  obtain ⟨c1, c2⟩ := floor_cell hg.dz p.z
  obtain ⟨d1, d2⟩ := floor_cell hg.dz p.zOld
  rw [hs.1] at b1 b2
  rw [hs.2] at d1 d2
  unfold Part.midR Part.midZ
  refine ⟨⟨?_, ?_⟩, ⟨?_, ?_⟩⟩ <;> linarith

/-- The deposit of one particle at every node. -/
theorem azimuthalOps_value (x : Ctx K) (hx : x.Good) (p : Part K) (hb : p.Bound x.g) (a b : Int) :
    tot (azimuthalOps x p) .jp a b =
      p.q * p.vphi *
        ((if a + x.g.r0 = ⌊p.r / x.g.dr⌋ then
            ((((⌊p.r / x.g.dr⌋ : K) + 1/2) * x.g.dr) ^ 2 - (p.midR - x.g.dr / 2) ^ 2) / (2 * p.midR * x.g.dr) /
              cellRing x.pi x.g.dr x.g.dz ⌊p.r / x.g.dr⌋
          else if a + x.g.r0 = ⌊p.r / x.g.dr⌋ + 1 then
            ((p.midR + x.g.dr / 2) ^ 2 - (((⌊p.r / x.g.dr⌋ : K) + 1/2) * x.g.dr) ^ 2) / (2 * p.midR * x.g.dr) /
              nodeRing x.pi x.g.dr x.g.dz ((⌊p.r / x.g.dr⌋ + 1 : Int) : K)
          else 0) *
        (if b + x.g.z0 = ⌊p.z / x.g.dz⌋ then (((⌊p.z / x.g.dz⌋ : K) + 1) * x.g.dz - p.midZ) / x.g.dz
          else if b + x.g.z0 = ⌊p.z / x.g.dz⌋ + 1 then (p.midZ - (⌊p.z / x.g.dz⌋ : K) * x.g.dz) / x.g.dz
          else 0)) := by
  have dr := hx.geo.dr
  have dz := hx.geo.dz
  have pi := hx.pi
  have mid : 0 < p.midR := by have := hb.rpos; have := hb.rOldPos; unfold Part.midR; linarith
  obtain ⟨h1, h2, h3, h4⟩ := bound_cells hx.geo hb
  have i0 : (0 : K) ≤ (⌊p.r / x.g.dr⌋ : K) := by exact_mod_cast h2
  unfold azimuthalOps
  dsimp only
  rw [hb.cellR, hb.cellZ]
  simp only [tot_cons, tot_nil, Op.val, true_and]
  generalize ⌊p.r / x.g.dr⌋ = i at *
  generalize ⌊p.z / x.g.dz⌋ = k at *
  have hm : (p.r + p.rOld) / 2 = p.midR := rfl
  have hz : (p.z + p.zOld) / 2 = p.midZ := rfl
  rw [hm, hz]
  unfold cellVolume cellVolumeNext cylRngVol cellRing nodeRing
  have n1 : (2 * (i : K) + 1) ≠ 0 := by positivity
  have n2 : (2 * (i : K) + 1 + 1) ≠ 0 := by positivity
  have n3 : (((i : K) + 1) * x.g.dr) ^ 2 - ((i : K) * x.g.dr) ^ 2 ≠ 0 := by
    have : (((i : K) + 1) * x.g.dr) ^ 2 - ((i : K) * x.g.dr) ^ 2 = x.g.dr * x.g.dr * (2 * i + 1) := by ring
    rw [this]; positivity
  have e3 : (((i : K) + 1) * x.g.dr) ^ 2 - ((i : K) * x.g.dr) ^ 2 = x.g.dr * x.g.dr * (2 * i + 1) := by ring
  have e4 : ((((i + 1 : Int) : K) + 1/2) * x.g.dr) ^ 2 - ((((i + 1 : Int) : K) - 1/2) * x.g.dr) ^ 2 =
      x.g.dr * x.g.dr * (2 * i + 1 + 1) := by push_cast; ring
  rw [e3, e4]
  have qa : (a = i - (x.g.r0 : Int)) = (a + x.g.r0 = i) := propext (by omega)
  have qa' : (a = i - (x.g.r0 : Int) + 1) = (a + x.g.r0 = i + 1) := propext (by omega)
  have qb : (b = k - (x.g.z0 : Int)) = (b + x.g.z0 = k) := propext (by omega)
  have qb' : (b = k - (x.g.z0 : Int) + 1) = (b + x.g.z0 = k + 1) := propext (by omega)
  simp only [qa, qa', qb, qb']
  have ne1 : i ≠ i + 1 := by omega
  have ne2 : k ≠ k + 1 := by omega
  by_cases ca : a + x.g.r0 = i
  · have ca' : ¬ (a + x.g.r0 = i + 1) := by omega
    by_cases cb : b + x.g.z0 = k
    · have cb' : ¬ (b + x.g.z0 = k + 1) := by omega
      simp only [eq_true ca, eq_false ca', eq_true cb, eq_false cb', true_and, and_true, and_false, false_and, if_true, if_false]
      field_simp
      ring
    · by_cases cb' : b + x.g.z0 = k + 1
      · simp only [eq_true ca, eq_false ca', eq_false cb, eq_true cb', true_and, and_true, and_false, false_and, if_true, if_false]
        field_simp
        ring
      · simp only [eq_true ca, eq_false ca', eq_false cb, eq_false cb', true_and, and_true, and_false, false_and, if_true, if_false]
        ring
  · by_cases ca' : a + x.g.r0 = i + 1
    · by_cases cb : b + x.g.z0 = k
      · have cb' : ¬ (b + x.g.z0 = k + 1) := by omega
        simp only [eq_false ca, eq_true ca', eq_true cb, eq_false cb', true_and, and_true, and_false, false_and, if_true, if_false]
        field_simp
        ring
      · by_cases cb' : b + x.g.z0 = k + 1
        · simp only [eq_false ca, eq_true ca', eq_false cb, eq_true cb', true_and, and_true, and_false, false_and, if_true, if_false]
          field_simp
          ring
        · simp only [eq_false ca, eq_true ca', eq_false cb, eq_false cb', true_and, and_true, and_false, false_and, if_true, if_false]
          ring
    · simp only [eq_false ca, eq_false ca', true_and, and_true, and_false, false_and, if_true, if_false]
      ring

/-- C57 for one particle that stays in its cell during the step: at every node the deposited azimuthal
current times the volume used for that node is the azimuthal velocity times the charge the particle,
placed at the middle of its path, has at that node.  No other array changes.

Partial: the volume of the inner node is not the volume that belongs to it (`C57_volume_fails`),
and the particle has to stay in one cell (`C57_crossing_fails`). -/
theorem C57_partial (x : Ctx K) (hx : x.Good) (p : Part K) (hb : p.Bound x.g) (hs : p.SameCell x.g) (m : Mem K) :
    ∃ m', runOps x.g (azimuthalOps x p) m = .ok m' ∧
      (∀ c i k, c ≠ .jp → m' c i k = m c i k) ∧
      ∀ a b : Int, 0 ≤ a + x.g.r0 →
        (m' .jp a b - m .jp a b) * usedVolume x.pi x.g p.cellR (a + x.g.r0) =
          p.vphi * nodeCharge x.g p.q p.midR p.midZ (a + x.g.r0) (b + x.g.z0) := by
  obtain ⟨m', e, v⟩ := runOps_inc x.g _ (azimuthalOps_inc x hx p hb) m
  refine ⟨m', e, ?_, ?_⟩
  · intro c i k hc
    rw [v, azimuthalOps_tot x p c hc, add_zero]
  intro a b ha
  have dr := hx.geo.dr
  have dz := hx.geo.dz
  have pi := hx.pi
  obtain ⟨h1, h2, h3, h4⟩ := bound_cells hx.geo hb
  obtain ⟨⟨m1, m2⟩, m3, m4⟩ := mid_in_cell hx.geo hs
  have mid : 0 < p.midR := by have := hb.rpos; have := hb.rOldPos; unfold Part.midR; linarith
  rw [v, add_sub_cancel_left, azimuthalOps_value x hx p hb, hb.cellR]
  unfold nodeCharge
  have R := ringShare_cell dr h2 m1 m2 (a + x.g.r0) ha
  have Z := lineShare_cell dz m3 m4 (b + x.g.z0)
  rw [R, Z]
  have i0 : (0 : K) ≤ (⌊p.r / x.g.dr⌋ : K) := by exact_mod_cast h2
  generalize ⌊p.r / x.g.dr⌋ = i at *
  generalize ⌊p.z / x.g.dz⌋ = k at *
  have c1 : 0 < cellRing x.pi x.g.dr x.g.dz (i : K) := by
    have : cellRing x.pi x.g.dr x.g.dz (i : K) = x.pi * x.g.dz * (x.g.dr * x.g.dr * (2 * i + 1)) := by
      unfold cellRing; ring
    rw [this]; positivity
  have c2 : 0 < nodeRing x.pi x.g.dr x.g.dz ((i + 1 : Int) : K) := by
    have : nodeRing x.pi x.g.dr x.g.dz ((i + 1 : Int) : K) = x.pi * x.g.dz * (x.g.dr * x.g.dr * (2 * i + 2)) := by
      unfold nodeRing; push_cast; ring
    rw [this]; positivity
  by_cases ca : a + x.g.r0 = i
  · rw [if_pos ca, if_pos ca]
    unfold usedVolume
    rw [if_pos ca]
    have hd : ∀ A B C : K, C ≠ 0 → p.q * p.vphi * (A / C * B) * C = p.vphi * (p.q * A * B) := by
      intro A B C hC; field_simp
    split_ifs <;> (rw [hd _ _ _ c1.ne'])
    · ring
  · rw [if_neg ca, if_neg ca]
    by_cases ca' : a + x.g.r0 = i + 1
    · rw [if_pos ca', if_pos ca']
      unfold usedVolume
      rw [if_neg ca, ca']
      have hd : ∀ A B C : K, C ≠ 0 → p.q * p.vphi * (A / C * B) * C = p.vphi * (p.q * A * B) := by
        intro A B C hC; field_simp
      split_ifs <;> (rw [hd _ _ _ c2.ne'])
      · ring
    · rw [if_neg ca', if_neg ca']
      simp

/-- C57, the total: for every move inside the domain, the four deposits times the volumes used for
them add up to the charge times the azimuthal velocity. -/
theorem C57_total_partial (x : Ctx K) (hx : x.Good) (p : Part K) (hb : p.Bound x.g) (m : Mem K) :
    ∃ m', runOps x.g (azimuthalOps x p) m = .ok m' ∧
      let i := ⌊p.r / x.g.dr⌋ - (x.g.r0 : Int)
      let k := ⌊p.z / x.g.dz⌋ - (x.g.z0 : Int)
      let d := fun a b => (m' .jp a b - m .jp a b) * usedVolume x.pi x.g ⌊p.r / x.g.dr⌋ (a + x.g.r0)
      d i k + d (i + 1) k + d i (k + 1) + d (i + 1) (k + 1) = p.q * p.vphi ∧
      ∀ a b, ¬ ((a = i ∨ a = i + 1) ∧ (b = k ∨ b = k + 1)) → m' .jp a b = m .jp a b := by
  obtain ⟨m', e, v⟩ := runOps_inc x.g _ (azimuthalOps_inc x hx p hb) m
  refine ⟨m', e, ?_⟩
  have dr := hx.geo.dr
  have dz := hx.geo.dz
  have pi := hx.pi
  obtain ⟨h1, h2, h3, h4⟩ := bound_cells hx.geo hb
  have mid : 0 < p.midR := by have := hb.rpos; have := hb.rOldPos; unfold Part.midR; linarith
  have i0 : (0 : K) ≤ (⌊p.r / x.g.dr⌋ : K) := by exact_mod_cast h2
  dsimp only
  simp only [v, add_sub_cancel_left, azimuthalOps_value x hx p hb]
  generalize ⌊p.r / x.g.dr⌋ = i at *
  generalize ⌊p.z / x.g.dz⌋ = k at *
  have c1 : 0 < cellRing x.pi x.g.dr x.g.dz (i : K) := by
    have : cellRing x.pi x.g.dr x.g.dz (i : K) = x.pi * x.g.dz * (x.g.dr * x.g.dr * (2 * i + 1)) := by
      unfold cellRing; ring
    rw [this]; positivity
  have c2 : 0 < nodeRing x.pi x.g.dr x.g.dz ((i + 1 : Int) : K) := by
    have : nodeRing x.pi x.g.dr x.g.dz ((i + 1 : Int) : K) = x.pi * x.g.dz * (x.g.dr * x.g.dr * (2 * i + 2)) := by
      unfold nodeRing; push_cast; ring
    rw [this]; positivity
  constructor
  · have r1 : i - (x.g.r0 : Int) + x.g.r0 = i := by omega
    have r2 : i - (x.g.r0 : Int) + 1 + x.g.r0 = i + 1 := by omega
    have r3 : k - (x.g.z0 : Int) + x.g.z0 = k := by omega
    have r4 : k - (x.g.z0 : Int) + 1 + x.g.z0 = k + 1 := by omega
    have r5 : ¬ (i + 1 = i) := by omega
    have r6 : ¬ (k + 1 = k) := by omega
    unfold usedVolume
    rw [r1, r2, r3, r4]
    rw [if_pos rfl, if_pos rfl, if_pos rfl, if_neg r5, if_pos rfl, if_neg r6, if_pos rfl, if_neg r5]
    generalize cellRing x.pi x.g.dr x.g.dz (i : K) = C at *
    generalize nodeRing x.pi x.g.dr x.g.dz ((i + 1 : Int) : K) = N at *
    field_simp
    ring
  · intro a b hab
    have : (if a + x.g.r0 = i then
            ((((i : K) + 1/2) * x.g.dr) ^ 2 - (p.midR - x.g.dr / 2) ^ 2) / (2 * p.midR * x.g.dr) /
              cellRing x.pi x.g.dr x.g.dz i
          else if a + x.g.r0 = i + 1 then
            ((p.midR + x.g.dr / 2) ^ 2 - (((i : K) + 1/2) * x.g.dr) ^ 2) / (2 * p.midR * x.g.dr) /
              nodeRing x.pi x.g.dr x.g.dz ((i + 1 : Int) : K)
          else 0) *
        (if b + x.g.z0 = k then (((k : K) + 1) * x.g.dz - p.midZ) / x.g.dz
          else if b + x.g.z0 = k + 1 then (p.midZ - (k : K) * x.g.dz) / x.g.dz
          else 0) = 0 := by
      by_cases q : a = i - x.g.r0 ∨ a = i - x.g.r0 + 1
      · have q' : ¬ (b = k - x.g.z0 ∨ b = k - x.g.z0 + 1) := fun h => hab ⟨q, h⟩
        have s1 : ¬ (b + x.g.z0 = k) := by omega
        have s2 : ¬ (b + x.g.z0 = k + 1) := by omega
        rw [if_neg s1, if_neg s2, mul_zero]
      · have s1 : ¬ (a + x.g.r0 = i) := by omega
        have s2 : ¬ (a + x.g.r0 = i + 1) := by omega
        rw [if_neg s1, if_neg s2, zero_mul]
    rw [this, mul_zero, add_zero]

/-- C57 is false for the inner node: whenever the particle has charge and turns, and reaches that node,
its current times the volume of the node is not velocity times charge. -/
theorem C57_volume_fails (x : Ctx K) (hx : x.Good) (p : Part K) (hb : p.Bound x.g) (hs : p.SameCell x.g)
    (m m' : Mem K) (h : runOps x.g (azimuthalOps x p) m = .ok m') (b : Int)
    (hq : p.vphi * nodeCharge x.g p.q p.midR p.midZ p.cellR (b + x.g.z0) ≠ 0) :
    (m' .jp (p.cellR - x.g.r0) b - m .jp (p.cellR - x.g.r0) b) * nodeRing x.pi x.g.dr x.g.dz p.cellR ≠
      p.vphi * nodeCharge x.g p.q p.midR p.midZ p.cellR (b + x.g.z0) := by
  obtain ⟨m'', e, _, v⟩ := C57_partial x hx p hb hs m
  obtain rfl := Res.ok.inj (e.symm.trans h)
  have dr := hx.geo.dr
  have dz := hx.geo.dz
  have pi := hx.pi
  obtain ⟨h1, h2, h3, h4⟩ := bound_cells hx.geo hb
  have i0 : (0 : Int) ≤ p.cellR := by rw [hb.cellR]; exact h2
  have w := v (p.cellR - x.g.r0) b (by omega)
  have r1 : p.cellR - (x.g.r0 : Int) + x.g.r0 = p.cellR := by omega
  rw [r1] at w
  intro bad
  rw [← w] at bad hq
  unfold usedVolume at bad hq
  rw [if_pos rfl] at bad hq
  have nz := left_ne_zero_of_mul hq
  have E := mul_left_cancel₀ nz bad
  have : cellRing x.pi x.g.dr x.g.dz (p.cellR : K) - nodeRing x.pi x.g.dr x.g.dz (p.cellR : K) =
      x.pi * x.g.dz * (x.g.dr * x.g.dr) := by unfold cellRing nodeRing; ring
  have pos : 0 < x.pi * x.g.dz * (x.g.dr * x.g.dr) := by positivity
  rw [E] at this
  linarith

/-- C57 is false for a particle that moves outwards into another cell row with the middle of its path
still in the old one: the outer node gets a current of the opposite direction. -/
theorem C57_crossing_fails (x : Ctx K) (hx : x.Good) (p : Part K) (hb : p.Bound x.g)
    (hr : p.midR < (p.cellR : K) * x.g.dr) (hz : p.midZ < ((p.cellZ : K) + 1) * x.g.dz)
    (hq : 0 < p.q * p.vphi) (m m' : Mem K) (h : runOps x.g (azimuthalOps x p) m = .ok m') :
    m' .jp (p.cellR - x.g.r0 + 1) (p.cellZ - x.g.z0) < m .jp (p.cellR - x.g.r0 + 1) (p.cellZ - x.g.z0) := by
  obtain ⟨m'', e, v⟩ := runOps_inc x.g _ (azimuthalOps_inc x hx p hb) m
  obtain rfl := Res.ok.inj (e.symm.trans h)
  have dr := hx.geo.dr
  have dz := hx.geo.dz
  have pi := hx.pi
  obtain ⟨h1, h2, h3, h4⟩ := bound_cells hx.geo hb
  have mid : 0 < p.midR := by have := hb.rpos; have := hb.rOldPos; unfold Part.midR; linarith
  have i0 : (0 : K) ≤ (⌊p.r / x.g.dr⌋ : K) := by exact_mod_cast h2
  rw [v, azimuthalOps_value x hx p hb]
  rw [hb.cellR] at hr ⊢
  rw [hb.cellZ] at hz ⊢
  generalize ⌊p.r / x.g.dr⌋ = i at *
  generalize ⌊p.z / x.g.dz⌋ = k at *
  have r2 : i - (x.g.r0 : Int) + 1 + x.g.r0 = i + 1 := by omega
  have r3 : k - (x.g.z0 : Int) + x.g.z0 = k := by omega
  have r5 : ¬ (i + 1 = i) := by omega
  rw [r2, r3, if_neg r5, if_pos rfl, if_pos rfl]
  have c2 : 0 < nodeRing x.pi x.g.dr x.g.dz ((i + 1 : Int) : K) := by
    have : nodeRing x.pi x.g.dr x.g.dz ((i + 1 : Int) : K) = x.pi * x.g.dz * (x.g.dr * x.g.dr * (2 * i + 2)) := by
      unfold nodeRing; push_cast; ring
    rw [this]; positivity
  have s1 : (p.midR + x.g.dr / 2) ^ 2 - (((i : K) + 1/2) * x.g.dr) ^ 2 < 0 := by
    have : p.midR + x.g.dr / 2 < ((i : K) + 1/2) * x.g.dr := by linarith
    have := pow_lt_pow_left₀ this (by positivity) (two_ne_zero)
    linarith
  have s2 : 0 < (((k : K) + 1) * x.g.dz - p.midZ) / x.g.dz := div_pos (by linarith) dz
  have s3 : ((p.midR + x.g.dr / 2) ^ 2 - (((i : K) + 1/2) * x.g.dr) ^ 2) / (2 * p.midR * x.g.dr) /
      nodeRing x.pi x.g.dr x.g.dz ((i + 1 : Int) : K) < 0 :=
    div_neg_of_neg_of_pos (div_neg_of_neg_of_pos s1 (by positivity)) c2
  have := mul_neg_of_pos_of_neg hq (mul_neg_of_neg_of_pos s3 s2)
  linarith

/-! ### The hypotheses can be met -/

example (m : Mem ℚ) : ∃ m', runOps exCtx.g (azimuthalOps exCtx exIn) m = .ok m' := by
  obtain ⟨m', h, _⟩ := C57_partial exCtx exCtx_good exIn exIn_bound (by decide +kernel) m
  exact ⟨m', h⟩
example : exIn.vphi * nodeCharge exCtx.g exIn.q exIn.midR exIn.midZ exIn.cellR (0 + exCtx.g.z0) ≠ 0 := by decide +kernel
example : exCross.midR < (exCross.cellR : ℚ) * exCtx.g.dr ∧ exCross.midZ < ((exCross.cellZ : ℚ) + 1) * exCtx.g.dz ∧
    0 < exCross.q * exCross.vphi := by decide +kernel

end VB
end Pico
