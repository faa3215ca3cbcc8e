import Verif.Props.External
import Verif.Props.SeenDivided

/-!
# C112 — the external field a particle meets does not depend on the division of the area

`Ext.run` on the domains against `Ext.run` on the undivided area, and what `getE`/`getH` read from the two.
-/

set_option linter.unusedSimpArgs false
set_option linter.unusedVariables false
set_option linter.unusedSectionVars false

namespace Pico
namespace Ext

open Yee Interp

variable {K : Type _} [Field K] [LinearOrder K] [IsStrictOrderedRing K] [FloorRing K]

/-! ### Specification -/

/-- The ring of one cell size around the point `(r, z)` reaches into another domain where the nodes of the axial magnetic field
are concerned: those in the half cell at the inner and at the outer border of the domain, and those in its last column. -/
def AtBorder (p : Par K) (domR domZ i j : Nat) (r z : K) : Prop :=
  (0 < i ∧ r < ((p.r0 + low p.nr domR i : Nat) : K) * p.dr + p.dr / 2) ∨
  (i + 1 < domR ∧ ((p.r0 + low p.nr domR i + hgt p.nr domR i : Nat) : K) * p.dr - p.dr / 2 < r) ∨
  (j + 1 < domZ ∧ ((low p.nz domZ j + hgt p.nz domZ j : Nat) : K) * p.dz - p.dz < z)

/-- The point lies at least one and a half rows and a column away from the walls of the area. -/
structure OffWalls (p : Par K) (r z : K) : Prop where
  rlo : ((p.r0 : Nat) : K) * p.dr + p.dr + p.dr / 2 ≤ r
  rhi : r < ((p.r0 + p.nr : Nat) : K) * p.dr - p.dr - p.dr / 2
  zlo : p.dz ≤ z
  zhi : z < ((p.nz : Nat) : K) * p.dz - p.dz - p.dz

/-! ### What the grids of the domains hold -/

theorem inner_row (b1 b3 : Bool) {i d lo h n : Nat} (r1 : 2 ≤ h) (r2 : lo + h ≤ n) (r3 : i = 0 → lo = 0) (r4 : i ≠ 0 → 2 ≤ lo)
    (r5 : i = d - 1 → lo + h = n) (r6 : i ≠ d - 1 → lo + h + 2 ≤ n) (x : Int) :
    ((if (if i = 0 then b1 else false) = true then (1 : Int) else 0) ≤ x ∧
      x < (h : Int) - (if (if i = d - 1 then b3 else false) = true then 1 else 0)) ↔
      (0 ≤ x ∧ x < h) ∧ (if b1 = true then (1 : Int) else 0) ≤ lo + x ∧ (lo : Int) + x < (n : Int) - (if b3 = true then 1 else 0) := by
  by_cases c1 : i = 0
  · have q1 := r3 c1
    rw [if_pos c1]
    by_cases c3 : i = d - 1
    · have q3 := r5 c3
      rw [if_pos c3]
      split_ifs <;> omega
    · have q3 := r6 c3
      rw [if_neg c3, if_neg Bool.false_ne_true]
      split_ifs <;> omega
  · have q1 := r4 c1
    rw [if_neg c1, if_neg Bool.false_ne_true]
    by_cases c3 : i = d - 1
    · have q3 := r5 c3
      rw [if_pos c3]
      split_ifs <;> omega
    · have q3 := r6 c3
      rw [if_neg c3, if_neg Bool.false_ne_true]
      split_ifs <;> omega

theorem inner_dom {p : Par K} {domR domZ : Nat} (hd : Divided p domR domZ) {i j : Nat} (hi : i < domR) (hj : j < domZ) (x y : Int) :
    Inner (winPar p domR domZ i j) x y ↔
      ((0 ≤ x ∧ x < hgt p.nr domR i) ∧ (0 ≤ y ∧ y < hgt p.nz domZ j)) ∧ Inner p (low p.nr domR i + x) (low p.nz domZ j + y) := by
  obtain ⟨⟨r1, r2, r3, r4, r5, r6⟩, z1, z2, z3, z4, z5, z6⟩ := hd.bounds hi hj
  unfold Inner
  rw [winPar_nr, winPar_nz]
  have row := inner_row p.walls.r0 p.walls.rr r1 r2 r3 r4 r5 r6 x
  have col := inner_row p.walls.z0 p.walls.zz z1 z2 z3 z4 z5 z6 y
  constructor
  · rintro ⟨a, b, c, d⟩
    obtain ⟨e1, e2, e3⟩ := row.mp ⟨a, b⟩
    obtain ⟨f1, f2, f3⟩ := col.mp ⟨c, d⟩
    exact ⟨⟨e1, f1⟩, e2, e3, f2, f3⟩
  · rintro ⟨⟨e1, f1⟩, e2, e3, f2, f3⟩
    obtain ⟨a, b⟩ := row.mpr ⟨e1, e2, e3⟩
    obtain ⟨c, d⟩ := col.mpr ⟨f1, f2, f3⟩
    exact ⟨a, b, c, d⟩

/-- What a domain holds of the external field of the undivided area: its own cells, and zero in its overlay. -/
def OwnCells (p : Par K) (domR domZ i j : Nat) (x m : Mem K) : Prop :=
  ∀ c a b, (CellOf p domR domZ i j a b → x c a b = m c (low p.nr domR i + a) (low p.nz domZ j + b)) ∧
    (¬ CellOf p domR domZ i j a b → x c a b = 0)

/-- **C112**, the cells: for every configuration and after every number of steps, the external fields of the domains and those of
the undivided area come into being together, they are the same in the cells of the domains; the overlays of the domains hold zero. -/
theorem C112_cells_partial (p : Par K) {domR domZ : Nat} (hd : Divided p domR domZ) (el mag : String) (ePar mPar : List K) (n : Nat) :
    (∀ m, run p el mag ePar mPar n = .ok m → ∀ i j, i < domR → j < domZ → ∃ x,
      run (domPar p domR domZ i j) el mag ePar mPar n = .ok x ∧ OwnCells p domR domZ i j x m) ∧
    (∀ i j, i < domR → j < domZ → ∀ x, run (domPar p domR domZ i j) el mag ePar mPar n = .ok x →
      ∃ m, run p el mag ePar mPar n = .ok m) := by
  rw [domPar_eq hd]
  have r1 := hd.r1; have r2 := hd.r2; have r3 := hd.r3; have z1 := hd.z1; have z2 := hd.z2; have z3 := hd.z3
  have zero : ∀ i j, OwnCells p domR domZ i j (fun _ _ _ => (0 : K)) (fun _ _ _ => 0) := fun i j c a b => ⟨fun _ => rfl, fun _ => rfl⟩
  by_cases bad : mag ∉ ["none", "const_r", "const_phi", "const_z", "linerad_r", "linerad_z"]
  · refine ⟨fun m e => ?_, fun i j hi hj x e => ?_⟩
    · rw [(C24_magnetic_unknown_rejected p el mag ePar mPar).2 bad] at e; exact absurd e (by simp)
    · rw [(C24_magnetic_unknown_rejected _ el mag ePar mPar).2 bad] at e; exact absurd e (by simp)
  · rw [not_not] at bad
    by_cases hc : mag = "const_z"
    · subst hc
      rcases n with _ | n
      · have e0 : ∀ q : Par K, run q el "const_z" ePar mPar 0 = .ok (fun _ _ _ => 0) := by
          intro q
          rw [run_eq, show mProfile "const_z" = .ok 3 by decide]
          rfl
        refine ⟨fun m e i j hi hj => ⟨_, e0 _, ?_⟩, fun i j hi hj x e => ⟨_, e0 _⟩⟩
        rw [e0] at e
        cases e
        exact zero i j
      · rcases mPar with _ | ⟨a, mPar⟩
        · refine ⟨fun m e => ?_, fun i j hi hj x e => ?_⟩
          · rw [C24_missing_parameter] at e; exact absurd e (by simp)
          · rw [C24_missing_parameter] at e; exact absurd e (by simp)
        · obtain ⟨m', e', A⟩ := C24_magnetic_const_z_partial p (by omega) (by omega) (by omega) (by omega) el ePar a mPar n
          refine ⟨fun m e i j hi hj => ?_, fun i j hi hj x e => ⟨m', e'⟩⟩
          have : m' = m := Res.ok.inj (e'.symm.trans e)
          subst this
          have hb := hd.bounds hi hj
          obtain ⟨x, ex, B⟩ := C24_magnetic_const_z_partial (winPar p domR domZ i j) (by rw [winPar_nr]; omega) (by rw [winPar_nr]; omega)
            (by rw [winPar_nz]; omega) (by rw [winPar_nz]; omega) el ePar a mPar n
          refine ⟨x, ex, fun c u v => ?_⟩
          by_cases hc : c = .fz
          · subst hc
            constructor
            · rintro ⟨_, _, h1, h2⟩
              by_cases hin : Inner p (low p.nr domR i + u) (low p.nz domZ j + v)
              · rw [B.z_in _ _ ((inner_dom hd hi hj u v).mpr ⟨⟨h1, h2⟩, hin⟩), A.z_in _ _ hin]
              · rw [B.z_out _ _ (fun h => hin ((inner_dom hd hi hj u v).mp h).2), A.z_out _ _ hin]
            · intro h
              exact B.z_out _ _ (fun q => h ⟨hi, hj, ((inner_dom hd hi hj u v).mp q).1⟩)
          · exact ⟨fun _ => by rw [B.rest c hc, A.rest c hc], fun _ => B.rest c hc u v⟩
    · have e0 : ∀ q : Par K, run q el mag ePar mPar n = .ok (fun _ _ _ => 0) := by
        intro q
        by_cases hn : mag = "none"
        · subst hn
          rw [C24_electric_fails]
          exact C24_none q [] mPar n
        · exact C24_magnetic_ignored_fails q mag (by simp at bad ⊢; tauto) el ePar mPar n
      refine ⟨fun m e i j hi hj => ⟨_, e0 _, ?_⟩, fun i j hi hj x e => ⟨_, e0 _⟩⟩
      rw [e0] at e
      cases e
      exact zero i j

/-- Whatever the configuration, only the axial magnetic component is ever set, and only in cells that are not wall cells. -/
theorem only_axial {p : Par K} (hr : 1 ≤ p.nr) (hr' : p.nr < 2 ^ 32) (hz : 1 ≤ p.nz) (hz' : p.nz < 2 ^ 32) {el mag : String} {ePar mPar : List K}
    {n : Nat} {m : Mem K} (e : run p el mag ePar mPar n = .ok m) : (∀ c, c ≠ .fz → m c = fun _ _ => 0) ∧ ∀ a b, ¬ Inner p a b → m .fz a b = 0 := by
  by_cases bad : mag ∉ ["none", "const_r", "const_phi", "const_z", "linerad_r", "linerad_z"]
  · rw [(C24_magnetic_unknown_rejected p el mag ePar mPar).2 bad] at e; exact absurd e (by simp)
  · rw [not_not] at bad
    by_cases hc : mag = "const_z"
    · subst hc
      rcases n with _ | n
      · rw [run_eq, show mProfile "const_z" = .ok 3 by decide] at e
        cases e
        exact ⟨fun _ _ => rfl, fun _ _ _ => rfl⟩
      · rcases mPar with _ | ⟨a, mPar⟩
        · rw [C24_missing_parameter] at e; exact absurd e (by simp)
        · obtain ⟨m', e', A⟩ := C24_magnetic_const_z_partial p hr hr' hz hz' el ePar a mPar n
          have : m' = m := Res.ok.inj (e'.symm.trans e)
          subst this
          exact ⟨fun c h => by funext a b; exact A.rest c h a b, A.z_out⟩
    · have e0 : run p el mag ePar mPar n = .ok (fun _ _ _ => 0) := by
        by_cases hn : mag = "none"
        · subst hn
          rw [C24_electric_fails]
          exact C24_none p [] mPar n
        · exact C24_magnetic_ignored_fails p mag (by simp at bad ⊢; tauto) el ePar mPar n
      rw [e0] at e
      cases e
      exact ⟨fun _ _ => rfl, fun _ _ _ => rfl⟩

theorem seen_zero (g : Geom K) (α β r z : K) : seen g α β (fun _ _ => 0) r z = 0 := by
  unfold seen
  simp

/-- What a particle sees of fields with an axial magnetic component only. -/
theorem axial_seen {pi : K} (hpi : 0 < pi) {g : Geom K} (G : g.Good) {r z : K} (hc : g.Contains r z) (hr : g.dr / 2 ≤ r) {m : Mem K}
    (o : ∀ c, c ≠ .fz → m c = fun _ _ => 0) :
    getE pi g m r z = .ok ⟨0, 0, 0⟩ ∧ getH pi g m r z = .ok ⟨0, 0, seen g (1/2) 0 (m .fz) r z⟩ := by
  rw [C23_magnetic hpi G hc hr, C23_electric_partial hpi G hc hr, o .fr (by decide), o .fp (by decide), o .er (by decide), o .ep (by decide),
    o .ez (by decide), seen_zero, seen_zero, seen_zero, seen_zero]
  simp

/-- Sums of four weighted values some of which are missing. -/
theorem four_less {a w1 w2 w3 w4 t1 t2 t3 t4 : K} (ha : a ≠ 0) (p1 : 0 ≤ w1) (p2 : 0 ≤ w2) (p3 : 0 ≤ w3) (p4 : 0 ≤ w4) (f1 : t1 = 0 ∨ t1 = 1)
    (f2 : t2 = 0 ∨ t2 = 1) (f3 : t3 = 0 ∨ t3 = 1) (f4 : t4 = 0 ∨ t4 = 1) :
    |w1 * (t1 * a) + w2 * (t2 * a) + (w3 * (t3 * a) + w4 * (t4 * a))| ≤ |w1 * a + w2 * a + (w3 * a + w4 * a)| ∧
    (|w1 * (t1 * a) + w2 * (t2 * a) + (w3 * (t3 * a) + w4 * (t4 * a))| < |w1 * a + w2 * a + (w3 * a + w4 * a)| ↔
      (0 < w1 ∧ t1 ≠ 1) ∨ (0 < w2 ∧ t2 ≠ 1) ∨ (0 < w3 ∧ t3 ≠ 1) ∨ (0 < w4 ∧ t4 ≠ 1)) := by
  have one : ∀ {w t : K}, 0 ≤ w → (t = 0 ∨ t = 1) → 0 ≤ w * t ∧ w * t ≤ w ∧ (w * t < w ↔ 0 < w ∧ t ≠ 1) := by
    intro w t hw ht
    rcases ht with rfl | rfl
    · simp [hw]
    · simp [hw]
  have a0 : 0 < |a| := abs_pos.mpr ha
  have e1 : w1 * (t1 * a) + w2 * (t2 * a) + (w3 * (t3 * a) + w4 * (t4 * a)) = (w1 * t1 + w2 * t2 + w3 * t3 + w4 * t4) * a := by ring
  have e2 : w1 * a + w2 * a + (w3 * a + w4 * a) = (w1 + w2 + w3 + w4) * a := by ring
  obtain ⟨n1, l1, s1⟩ := one p1 f1
  obtain ⟨n2, l2, s2⟩ := one p2 f2
  obtain ⟨n3, l3, s3⟩ := one p3 f3
  obtain ⟨n4, l4, s4⟩ := one p4 f4
  rw [e1, e2, abs_mul, abs_mul, abs_of_nonneg (by linarith : 0 ≤ w1 * t1 + w2 * t2 + w3 * t3 + w4 * t4),
    abs_of_nonneg (by linarith : 0 ≤ w1 + w2 + w3 + w4), mul_lt_mul_iff_left₀ a0, ← s1, ← s2, ← s3, ← s4]
  refine ⟨mul_le_mul_of_nonneg_right (by linarith) a0.le, ?_, ?_⟩
  · intro h
    by_contra c
    simp only [not_or, not_lt] at c
    linarith [c.1, c.2.1, c.2.2.1, c.2.2.2]
  · rintro (h | h | h | h) <;> linarith

section
variable {p : Par K} (hr : 0 < p.dr) (hz : 0 < p.dz) (hbig : p.r0 + p.nr < 2 ^ 31) {domR domZ : Nat} (hd : Divided p domR domZ) {i j : Nat}
  (hi : i < domR) (hj : j < domZ) {r z : K} (hc : (domGeom p domR domZ i j).Contains r z)
include hr hz hbig hd hi hj hc

theorem goods : (winGeom p domR domZ i j).Good ∧ (areaGeom p).Good ∧ (winGeom p domR domZ i j).Contains r z ∧ (areaGeom p).Contains r z := by
  have hb := hd.bounds hi hj
  have z3 := hd.z3
  rw [domGeom_eq hd] at hc
  refine ⟨⟨hr, hz, by dsimp only [winGeom]; omega, by dsimp only [winGeom]; omega⟩,
    ⟨hr, hz, by dsimp only [areaGeom]; omega, by dsimp only [areaGeom]; omega⟩, hc, ?_⟩
  have c1 := hc.rlo; have c2 := hc.rhi; have c3 := hc.zlo; have c4 := hc.zhi
  dsimp only [winGeom] at c1 c2 c3 c4
  push_cast at c1 c2 c3 c4
  have q1 : (0 : K) ≤ (low p.nr domR i : K) * p.dr := by positivity
  have q2 : ((low p.nr domR i : K) + hgt p.nr domR i) * p.dr ≤ p.nr * p.dr :=
    mul_le_mul_of_nonneg_right (by exact_mod_cast hb.1.2.1) hr.le
  have q3 : (0 : K) ≤ (low p.nz domZ j : K) * p.dz := by positivity
  have q4 : ((low p.nz domZ j : K) + hgt p.nz domZ j) * p.dz ≤ p.nz * p.dz :=
    mul_le_mul_of_nonneg_right (by exact_mod_cast hb.2.2.1) hz.le
  refine ⟨?_, ?_, ?_, ?_⟩ <;> dsimp only [areaGeom] <;> push_cast <;> linarith

/-- The four nodes of the axial magnetic field around a particle, in a domain and in the area. -/
theorem four_nodes (ha : p.dr / 2 ≤ r) (x m : Int → Int → K) :
    seen (winGeom p domR domZ i j) (1/2) 0 x r z =
      seenWeight (areaGeom p) (1/2) 0 r z ⌊(r - 1/2 * p.dr) / p.dr⌋ ⌊z / p.dz⌋ * x (⌊(r - 1/2 * p.dr) / p.dr⌋ - (p.r0 + low p.nr domR i)) (⌊z / p.dz⌋ - low p.nz domZ j) +
      seenWeight (areaGeom p) (1/2) 0 r z ⌊(r - 1/2 * p.dr) / p.dr⌋ (⌊z / p.dz⌋ + 1) * x (⌊(r - 1/2 * p.dr) / p.dr⌋ - (p.r0 + low p.nr domR i)) (⌊z / p.dz⌋ - low p.nz domZ j + 1) +
      (seenWeight (areaGeom p) (1/2) 0 r z (⌊(r - 1/2 * p.dr) / p.dr⌋ + 1) ⌊z / p.dz⌋ * x (⌊(r - 1/2 * p.dr) / p.dr⌋ - (p.r0 + low p.nr domR i) + 1) (⌊z / p.dz⌋ - low p.nz domZ j) +
      seenWeight (areaGeom p) (1/2) 0 r z (⌊(r - 1/2 * p.dr) / p.dr⌋ + 1) (⌊z / p.dz⌋ + 1) * x (⌊(r - 1/2 * p.dr) / p.dr⌋ - (p.r0 + low p.nr domR i) + 1) (⌊z / p.dz⌋ - low p.nz domZ j + 1)) ∧
    seen (areaGeom p) (1/2) 0 m r z =
      seenWeight (areaGeom p) (1/2) 0 r z ⌊(r - 1/2 * p.dr) / p.dr⌋ ⌊z / p.dz⌋ * m (⌊(r - 1/2 * p.dr) / p.dr⌋ - p.r0) ⌊z / p.dz⌋ +
      seenWeight (areaGeom p) (1/2) 0 r z ⌊(r - 1/2 * p.dr) / p.dr⌋ (⌊z / p.dz⌋ + 1) * m (⌊(r - 1/2 * p.dr) / p.dr⌋ - p.r0) (⌊z / p.dz⌋ + 1) +
      (seenWeight (areaGeom p) (1/2) 0 r z (⌊(r - 1/2 * p.dr) / p.dr⌋ + 1) ⌊z / p.dz⌋ * m (⌊(r - 1/2 * p.dr) / p.dr⌋ - p.r0 + 1) ⌊z / p.dz⌋ +
      seenWeight (areaGeom p) (1/2) 0 r z (⌊(r - 1/2 * p.dr) / p.dr⌋ + 1) (⌊z / p.dz⌋ + 1) * m (⌊(r - 1/2 * p.dr) / p.dr⌋ - p.r0 + 1) (⌊z / p.dz⌋ + 1)) := by
  obtain ⟨G1, G2, c1, c2⟩ := goods hr hz hbig hd hi hj hc
  constructor
  · rw [seen_four (around10 G1 c1 ha)]
    rw [show (((winGeom p domR domZ i j).r0 : Nat) : Int) = p.r0 + low p.nr domR i by dsimp only [winGeom]; push_cast; rfl]
    rfl
  · rw [seen_four (around10 G2 c2 ha), show (((areaGeom p).z0 : Nat) : Int) = 0 from rfl, sub_zero]
    rfl

end

section
variable {p : Par K} (hr : 0 < p.dr) (hz : 0 < p.dz) (hbig : p.r0 + p.nr < 2 ^ 31) {domR domZ : Nat} (hd : Divided p domR domZ) {i j : Nat}
  (hi : i < domR) (hj : j < domZ) {r z : K} (hc : (domGeom p domR domZ i j).Contains r z)
include hr hz hbig hd hi hj hc

/-- Where the nodes around a particle of a domain can be. -/
theorem node_range : ((p.r0 : Int) + low p.nr domR i - 1 ≤ ⌊(r - 1/2 * p.dr) / p.dr⌋ ∧
      ⌊(r - 1/2 * p.dr) / p.dr⌋ + 1 ≤ (p.r0 : Int) + low p.nr domR i + hgt p.nr domR i) ∧
    ((low p.nz domZ j : Int) ≤ ⌊z / p.dz⌋ ∧ ⌊z / p.dz⌋ + 1 ≤ (low p.nz domZ j : Int) + hgt p.nz domZ j) := by
  rw [domGeom_eq hd] at hc
  obtain ⟨⟨a1, a2⟩, a3, a4⟩ := rows p hr hc.rlo hc.rhi
  obtain ⟨⟨b1, b2⟩, b3, b4⟩ := rows ⟨p.dz, p.dz, 0, 0, 0, 0, 0, p.walls⟩ hz hc.zlo hc.zhi
  dsimp only [winGeom] at a1 a2 b1 b2
  push_cast at a1 a2
  omega

/-- The weights of the four nodes: none negative; where they vanish and where not. -/
theorem node_weights (ha : p.dr / 2 ≤ r) (u v : Int) (hu : u = ⌊(r - 1/2 * p.dr) / p.dr⌋ ∨ u = ⌊(r - 1/2 * p.dr) / p.dr⌋ + 1)
    (hv : v = ⌊z / p.dz⌋ ∨ v = ⌊z / p.dz⌋ + 1) :
    0 ≤ seenWeight (areaGeom p) (1/2) 0 r z u v ∧
    (0 < seenWeight (areaGeom p) (1/2) 0 r z u v ↔
      (u = ⌊(r - 1/2 * p.dr) / p.dr⌋ ∨ ((u : K) - 1 + 1/2) * p.dr < r) ∧ (v = ⌊z / p.dz⌋ ∨ ((v : K) - 1) * p.dz < z)) := by
  obtain ⟨G1, G2, c1, c2⟩ := goods hr hz hbig hd hi hj hc
  have A := around10 G2 c2 ha
  obtain ⟨w1, w2, w3, w4⟩ := weight_vals A
  dsimp only [areaGeom] at A w1 w2 w3 w4
  have i0 : (0 : K) ≤ (⌊(r - 1/2 * p.dr) / p.dr⌋ : K) := by exact_mod_cast A.i0
  have l1 := A.rlo; have l2 := A.rhi; have l3 := A.zlo; have l4 := A.zhi
  dsimp only [areaGeom] at l1 l2 l3 l4
  refine ⟨(C23_weights G2 ha (1/2) 0 (by norm_num) u v).1, ?_⟩
  have d1 : 0 < p.dr * p.dr * (2 * ((⌊(r - 1/2 * p.dr) / p.dr⌋ : K) + 1/2) + 1) * p.dz := by positivity
  have d2 : 0 < p.dr * p.dr * (2 * ((⌊(r - 1/2 * p.dr) / p.dr⌋ : K) + 1/2) + 3) * p.dz := by positivity
  have f1 : 0 < (((⌊(r - 1/2 * p.dr) / p.dr⌋ : K) + 1/2 + 1/2) * p.dr) ^ 2 - (r - 1/2 * p.dr) ^ 2 := by
    have : (r - 1/2 * p.dr) ^ 2 < (((⌊(r - 1/2 * p.dr) / p.dr⌋ : K) + 1/2 + 1/2) * p.dr) ^ 2 :=
      pow_lt_pow_left₀ (by linarith) (by linarith) (by norm_num)
    linarith
  have f2 : 0 < (r + 1/2 * p.dr) ^ 2 - (((⌊(r - 1/2 * p.dr) / p.dr⌋ : K) + 1/2 + 1/2) * p.dr) ^ 2 ↔
      ((⌊(r - 1/2 * p.dr) / p.dr⌋ : K) + 1/2) * p.dr < r := by
    rw [sub_pos]
    have q : (0 : K) ≤ ((⌊(r - 1/2 * p.dr) / p.dr⌋ : K) + 1/2 + 1/2) * p.dr := by positivity
    rw [pow_lt_pow_iff_left₀ q (by linarith) (by norm_num)]
    constructor <;> intro h <;> linarith
  have f3 : 0 < ((⌊z / p.dz⌋ : K) + 0 + 1) * p.dz - z := by linarith
  have f4 : 0 < z - ((⌊z / p.dz⌋ : K) + 0) * p.dz ↔ (⌊z / p.dz⌋ : K) * p.dz < z := by
    rw [add_zero, sub_pos]
  have f4' : 0 ≤ z - ((⌊z / p.dz⌋ : K) + 0) * p.dz := by linarith
  have e1 : ((⌊(r - 1/2 * p.dr) / p.dr⌋ + 1 : Int) : K) - 1 + 1/2 = (⌊(r - 1/2 * p.dr) / p.dr⌋ : K) + 1/2 := by push_cast; ring
  have e2 : ((⌊z / p.dz⌋ + 1 : Int) : K) - 1 = (⌊z / p.dz⌋ : K) := by push_cast; ring
  have ne1 : ¬ ⌊(r - 1/2 * p.dr) / p.dr⌋ + 1 = ⌊(r - 1/2 * p.dr) / p.dr⌋ := by omega
  have ne2 : ¬ ⌊z / p.dz⌋ + 1 = ⌊z / p.dz⌋ := by omega
  rcases hu with rfl | rfl <;> rcases hv with rfl | rfl
  · show 0 < seenWeight ⟨p.dr, p.dz, p.r0, 0, p.nr, p.nz⟩ _ _ _ _ _ _ ↔ _
    rw [w1]
    exact ⟨fun _ => ⟨Or.inl rfl, Or.inl rfl⟩, fun _ => div_pos (mul_pos f1 f3) d1⟩
  · show 0 < seenWeight ⟨p.dr, p.dz, p.r0, 0, p.nr, p.nz⟩ _ _ _ _ _ _ ↔ _
    rw [w2, div_pos_iff_of_pos_right d1, mul_pos_iff_of_pos_left f1, f4, e2]
    exact ⟨fun h => ⟨Or.inl rfl, Or.inr h⟩, fun h => h.2.resolve_left ne2⟩
  · show 0 < seenWeight ⟨p.dr, p.dz, p.r0, 0, p.nr, p.nz⟩ _ _ _ _ _ _ ↔ _
    rw [w3, div_pos_iff_of_pos_right d2, mul_pos_iff_of_pos_right f3, f2, e1]
    exact ⟨fun h => ⟨Or.inr h, Or.inl rfl⟩, fun h => h.1.resolve_left ne1⟩
  · show 0 < seenWeight ⟨p.dr, p.dz, p.r0, 0, p.nr, p.nz⟩ _ _ _ _ _ _ ↔ _
    rw [w4, div_pos_iff_of_pos_right d2, e1, e2]
    constructor
    · intro h
      have q4 : 0 < z - ((⌊z / p.dz⌋ : K) + 0) * p.dz := by
        rcases f4'.lt_or_eq with q | q
        · exact q
        · rw [← q, mul_zero] at h; exact absurd h (lt_irrefl _)
      exact ⟨Or.inr (f2.mp ((mul_pos_iff_of_pos_right q4).mp h)), Or.inr (f4.mp q4)⟩
    · intro h
      exact mul_pos (f2.mpr (h.1.resolve_left ne1)) (f4.mpr (h.2.resolve_left ne2))

/-- A node beside the domain that is a cell of the area and has a weight: exactly for particles at a border. -/
theorem border_iff (ha : p.dr / 2 ≤ r) : AtBorder p domR domZ i j r z ↔
    ∃ u v, (u = ⌊(r - 1/2 * p.dr) / p.dr⌋ ∨ u = ⌊(r - 1/2 * p.dr) / p.dr⌋ + 1) ∧ (v = ⌊z / p.dz⌋ ∨ v = ⌊z / p.dz⌋ + 1) ∧
      0 < seenWeight (areaGeom p) (1/2) 0 r z u v ∧ ¬ CellOf p domR domZ i j (u - (p.r0 + low p.nr domR i)) (v - low p.nz domZ j) ∧
      (0 ≤ u - p.r0 ∧ u - p.r0 < p.nr) ∧ (0 ≤ v ∧ v < p.nz) := by
  have W := node_weights hr hz hbig hd hi hj hc ha
  obtain ⟨⟨n1, n2⟩, n3, n4⟩ := node_range hr hz hbig hd hi hj hc
  have hb := hd.bounds hi hj
  have fr := floor_bounds hr (r - 1/2 * p.dr)
  have fz := floor_bounds hz z
  have hc' := hc
  rw [domGeom_eq hd] at hc'
  constructor
  · rintro (⟨h1, h2⟩ | ⟨h1, h2⟩ | ⟨h1, h2⟩)
    · have e : ⌊(r - 1/2 * p.dr) / p.dr⌋ < (p.r0 : Int) + low p.nr domR i := by
        rw [Int.floor_lt, div_lt_iff₀ hr]
        push_cast at h2 ⊢
        linarith
      refine ⟨_, _, Or.inl rfl, Or.inl rfl, (W _ _ (Or.inl rfl) (Or.inl rfl)).2.mpr ⟨Or.inl rfl, Or.inl rfl⟩, ?_, ?_, ?_⟩
      · unfold CellOf; omega
      · omega
      · omega
    · have e : (p.r0 : Int) + low p.nr domR i + hgt p.nr domR i - 1 ≤ ⌊(r - 1/2 * p.dr) / p.dr⌋ := by
        rw [Int.le_floor, le_div_iff₀ hr]
        push_cast at h2 ⊢
        linarith
      have e' : ⌊(r - 1/2 * p.dr) / p.dr⌋ = (p.r0 : Int) + low p.nr domR i + hgt p.nr domR i - 1 := by omega
      refine ⟨_, _, Or.inr rfl, Or.inl rfl, (W _ _ (Or.inr rfl) (Or.inl rfl)).2.mpr ⟨Or.inr ?_, Or.inl rfl⟩, ?_, ?_, ?_⟩
      · rw [e']
        push_cast at h2 ⊢
        linarith
      · unfold CellOf; omega
      · omega
      · omega
    · have e : (low p.nz domZ j : Int) + hgt p.nz domZ j - 1 ≤ ⌊z / p.dz⌋ := by
        rw [Int.le_floor, le_div_iff₀ hz]
        push_cast at h2 ⊢
        linarith
      have e' : ⌊z / p.dz⌋ = (low p.nz domZ j : Int) + hgt p.nz domZ j - 1 := by omega
      by_cases ax : 0 ≤ ⌊(r - 1/2 * p.dr) / p.dr⌋ - p.r0
      · refine ⟨_, _, Or.inl rfl, Or.inr rfl, (W _ _ (Or.inl rfl) (Or.inr rfl)).2.mpr ⟨Or.inl rfl, Or.inr ?_⟩, ?_, ?_, ?_⟩
        · rw [e']
          push_cast at h2 ⊢
          linarith
        · unfold CellOf; omega
        · omega
        · omega
      · refine ⟨_, _, Or.inr rfl, Or.inr rfl, (W _ _ (Or.inr rfl) (Or.inr rfl)).2.mpr ⟨Or.inr ?_, Or.inr ?_⟩, ?_, ?_, ?_⟩
        · have f2 := (rows p hr hc'.rlo hc'.rhi).1
          dsimp only [winGeom] at f2
          push_cast at f2
          have f3 : ((⌊(r - 1/2 * p.dr) / p.dr⌋ : Int) : K) + 1 ≤ (⌊r / p.dr⌋ : K) := by exact_mod_cast (by omega)
          have f4 := (floor_bounds hr r).1
          have : ((⌊(r - 1/2 * p.dr) / p.dr⌋ : Int) : K) * p.dr + p.dr ≤ (⌊r / p.dr⌋ : K) * p.dr := by
            have := mul_le_mul_of_nonneg_right f3 hr.le
            linarith
          push_cast
          linarith
        · rw [e']
          push_cast at h2 ⊢
          linarith
        · unfold CellOf; omega
        · omega
        · omega
  · rintro ⟨u, v, hu, hv, hw, hn, ⟨i1, i2⟩, k1, k2⟩
    have hw := (W u v hu hv).2.mp hw
    have hn' : ¬ ((0 ≤ u - ((p.r0 : Int) + low p.nr domR i) ∧ u - ((p.r0 : Int) + low p.nr domR i) < hgt p.nr domR i) ∧
        (0 ≤ v - (low p.nz domZ j : Int) ∧ v - (low p.nz domZ j : Int) < hgt p.nz domZ j)) := fun h => hn ⟨hi, hj, h.1, h.2⟩
    rcases (show u < (p.r0 : Int) + low p.nr domR i ∨ (p.r0 : Int) + low p.nr domR i + hgt p.nr domR i ≤ u ∨
      (low p.nz domZ j : Int) + hgt p.nz domZ j ≤ v by omega) with h | h | h
    · refine Or.inl ⟨by omega, ?_⟩
      have e : ⌊(r - 1/2 * p.dr) / p.dr⌋ < (p.r0 : Int) + low p.nr domR i := by omega
      rw [Int.floor_lt, div_lt_iff₀ hr] at e
      push_cast at e ⊢
      linarith
    · refine Or.inr (Or.inl ⟨by omega, ?_⟩)
      have e : u = (p.r0 : Int) + low p.nr domR i + hgt p.nr domR i := by omega
      have := hw.1.resolve_left (by omega)
      rw [e] at this
      push_cast at this ⊢
      linarith
    · refine Or.inr (Or.inr ⟨by omega, ?_⟩)
      have e : v = (low p.nz domZ j : Int) + hgt p.nz domZ j := by omega
      have := hw.2.resolve_left (by omega)
      rw [e] at this
      push_cast at this ⊢
      linarith

/-- **C112**, as far as it holds: for every configuration and after every number of steps, a particle that is not at a border of its
domain sees the external fields it would see in the undivided area. -/
theorem C112_seen_partial {pi : K} (hpi : 0 < pi) (ha : p.dr / 2 ≤ r) (hs : ¬ AtBorder p domR domZ i j r z) {el mag : String} {ePar mPar : List K}
    {n : Nat} {m x : Mem K} (em : run p el mag ePar mPar n = .ok m) (ex : run (domPar p domR domZ i j) el mag ePar mPar n = .ok x) :
    getE pi (domGeom p domR domZ i j) x r z = getE pi (areaGeom p) m r z ∧
    getH pi (domGeom p domR domZ i j) x r z = getH pi (areaGeom p) m r z := by
  obtain ⟨x', ex', O⟩ := (C112_cells_partial p hd el mag ePar mPar n).1 m em i j hi hj
  have : x' = x := Res.ok.inj (ex'.symm.trans ex)
  subst this
  obtain ⟨G1, G2, c1, c2⟩ := goods hr hz hbig hd hi hj hc
  have hb := hd.bounds hi hj
  have r3 := hd.r3; have z3 := hd.z3
  have o1 := only_axial (by omega) (by omega) (by omega) (by omega) em
  rw [domPar_eq hd] at ex
  have o2 := only_axial (by rw [winPar_nr]; omega) (by rw [winPar_nr]; omega) (by rw [winPar_nz]; omega) (by rw [winPar_nz]; omega) ex
  obtain ⟨a1, a2⟩ := axial_seen hpi G1 c1 ha o2.1
  obtain ⟨b1, b2⟩ := axial_seen hpi G2 c2 ha o1.1
  rw [domGeom_eq hd, a1, a2, b1, b2]
  refine ⟨rfl, ?_⟩
  congr 2
  obtain ⟨s1, s2⟩ := four_nodes hr hz hbig hd hi hj hc ha (x' .fz) (m .fz)
  rw [s1, s2]
  have W := node_weights hr hz hbig hd hi hj hc ha
  have key : ∀ u v : Int, (u = ⌊(r - 1/2 * p.dr) / p.dr⌋ ∨ u = ⌊(r - 1/2 * p.dr) / p.dr⌋ + 1) → (v = ⌊z / p.dz⌋ ∨ v = ⌊z / p.dz⌋ + 1) →
      seenWeight (areaGeom p) (1/2) 0 r z u v * x' .fz (u - (p.r0 + low p.nr domR i)) (v - low p.nz domZ j) =
        seenWeight (areaGeom p) (1/2) 0 r z u v * m .fz (u - p.r0) v := by
    intro u v hu hv
    by_cases hin : CellOf p domR domZ i j (u - (p.r0 + low p.nr domR i)) (v - low p.nz domZ j)
    · rw [(O .fz _ _).1 hin]
      congr 2 <;> omega
    · rw [(O .fz _ _).2 hin, mul_zero]
      by_cases hin' : Inner p (u - p.r0) v
      · have hb := hin'
        unfold Inner at hb
        have hw : ¬ 0 < seenWeight (areaGeom p) (1/2) 0 r z u v := by
          intro h
          refine hs ((border_iff hr hz hbig hd hi hj hc ha).mpr ⟨u, v, hu, hv, h, hin, ?_, ?_⟩)
          · have := hb.1; have := hb.2.1
            constructor
            · split_ifs at this <;> split_ifs at * <;> omega
            · split_ifs at this <;> omega
          · have := hb.2.2.1; have := hb.2.2.2
            constructor
            · split_ifs at * <;> omega
            · split_ifs at this <;> omega
        have : seenWeight (areaGeom p) (1/2) 0 r z u v = 0 := le_antisymm (not_lt.mp hw) (W u v hu hv).1
        rw [this, zero_mul]
      · rw [o1.2 _ _ hin', mul_zero]
  have k1 := key _ _ (Or.inl rfl) (Or.inl rfl)
  have k2 := key _ _ (Or.inl rfl) (Or.inr rfl)
  have k3 := key _ _ (Or.inr rfl) (Or.inl rfl)
  have k4 := key _ _ (Or.inr rfl) (Or.inr rfl)
  rw [add_sub_right_comm] at k2
  rw [add_sub_right_comm, add_sub_right_comm] at k3
  rw [add_sub_right_comm, add_sub_right_comm, add_sub_right_comm] at k4
  rw [k1, k2, k3, k4]

/-- C112 fails at the borders of the domains: a particle away from the walls sees a homogeneous external magnetic field weaker than
in the undivided area exactly if it is at a border of its domain. -/
theorem C112_border_fails {pi : K} (hpi : 0 < pi) (hw : OffWalls p r z) (el : String) (ePar : List K) {a : K} (ha : a ≠ 0) (mPar : List K) (n : Nat) :
    ∃ (x m : Mem K) (hx hm : K), run (domPar p domR domZ i j) el "const_z" ePar (a :: mPar) (n + 1) = .ok x ∧
      run p el "const_z" ePar (a :: mPar) (n + 1) = .ok m ∧
      getH pi (domGeom p domR domZ i j) x r z = .ok ⟨0, 0, hx⟩ ∧ getH pi (areaGeom p) m r z = .ok ⟨0, 0, hm⟩ ∧
      |hx| ≤ |hm| ∧ (|hx| < |hm| ↔ AtBorder p domR domZ i j r z) := by
  have hb := hd.bounds hi hj
  have r3 := hd.r3; have z3 := hd.z3
  have r0' : (0 : K) ≤ (p.r0 : K) * p.dr := by positivity
  have hh : p.dr / 2 ≤ r := by have := hw.rlo; linarith
  obtain ⟨m, em, A⟩ := C24_magnetic_const_z_partial p (by omega) (by omega) (by omega) (by omega) el ePar a mPar n
  obtain ⟨x, ex, O⟩ := (C112_cells_partial p hd el "const_z" ePar (a :: mPar) (n + 1)).1 m em i j hi hj
  obtain ⟨G1, G2, c1, c2⟩ := goods hr hz hbig hd hi hj hc
  have ex' := ex
  rw [domPar_eq hd] at ex'
  have o2 := only_axial (by rw [winPar_nr]; omega) (by rw [winPar_nr]; omega) (by rw [winPar_nz]; omega) (by rw [winPar_nz]; omega) ex'
  have o1 := only_axial (by omega) (by omega) (by omega) (by omega) em
  have B := border_iff hr hz hbig hd hi hj hc hh
  have W := node_weights hr hz hbig hd hi hj hc hh
  obtain ⟨s1, s2⟩ := four_nodes hr hz hbig hd hi hj hc hh (x .fz) (m .fz)
  refine ⟨x, m, _, _, ex, em, by rw [domGeom_eq hd]; exact (axial_seen hpi G1 c1 hh o2.1).2, (axial_seen hpi G2 c2 hh o1.1).2, ?_⟩
  rw [s1, s2]
  -- the nodes are inner cells of the area
  have n1 : (p.r0 : Int) + 1 ≤ ⌊(r - 1/2 * p.dr) / p.dr⌋ := by
    rw [Int.le_floor, le_div_iff₀ hr]; have := hw.rlo; push_cast at this ⊢; linarith
  have n2 : ⌊(r - 1/2 * p.dr) / p.dr⌋ < (p.r0 : Int) + p.nr - 2 := by
    rw [Int.floor_lt, div_lt_iff₀ hr]; have := hw.rhi; push_cast at this ⊢; linarith
  have n3 : 1 ≤ ⌊z / p.dz⌋ := by
    rw [Int.le_floor, le_div_iff₀ hz]; have := hw.zlo; push_cast at this ⊢; linarith
  have n4 : ⌊z / p.dz⌋ < (p.nz : Int) - 2 := by
    rw [Int.floor_lt, div_lt_iff₀ hz]; have := hw.zhi; push_cast at this ⊢; linarith
  have hin : ∀ u v : Int, (u = ⌊(r - 1/2 * p.dr) / p.dr⌋ ∨ u = ⌊(r - 1/2 * p.dr) / p.dr⌋ + 1) → (v = ⌊z / p.dz⌋ ∨ v = ⌊z / p.dz⌋ + 1) →
      m .fz (u - p.r0) v = a := by
    intro u v hu hv
    apply A.z_in
    unfold Inner
    refine ⟨?_, ?_, ?_, ?_⟩ <;> split_ifs <;> omega
  have val : ∀ u v : Int, (u = ⌊(r - 1/2 * p.dr) / p.dr⌋ ∨ u = ⌊(r - 1/2 * p.dr) / p.dr⌋ + 1) → (v = ⌊z / p.dz⌋ ∨ v = ⌊z / p.dz⌋ + 1) →
      ∃ t : K, x .fz (u - (p.r0 + low p.nr domR i)) (v - low p.nz domZ j) = t * a ∧ (t = 0 ∨ t = 1) ∧
        (t = 1 ↔ CellOf p domR domZ i j (u - (p.r0 + low p.nr domR i)) (v - low p.nz domZ j)) := by
    intro u v hu hv
    by_cases q : CellOf p domR domZ i j (u - (p.r0 + low p.nr domR i)) (v - low p.nz domZ j)
    · refine ⟨1, ?_, Or.inr rfl, fun _ => q, fun _ => rfl⟩
      rw [(O .fz _ _).1 q, one_mul, ← hin u v hu hv]
      congr 1 <;> omega
    · exact ⟨0, by rw [(O .fz _ _).2 q, zero_mul], Or.inl rfl, fun h => absurd h (by norm_num), fun h => absurd h q⟩
  obtain ⟨t1, e1, f1, g1⟩ := val _ _ (Or.inl rfl) (Or.inl rfl)
  obtain ⟨t2, e2, f2, g2⟩ := val _ _ (Or.inl rfl) (Or.inr rfl)
  obtain ⟨t3, e3, f3, g3⟩ := val _ _ (Or.inr rfl) (Or.inl rfl)
  obtain ⟨t4, e4, f4, g4⟩ := val _ _ (Or.inr rfl) (Or.inr rfl)
  have i1 := hin _ _ (Or.inl rfl) (Or.inl rfl)
  have i2 := hin _ _ (Or.inl rfl) (Or.inr rfl)
  have i3 := hin _ _ (Or.inr rfl) (Or.inl rfl)
  have i4 := hin _ _ (Or.inr rfl) (Or.inr rfl)
  rw [add_sub_right_comm] at e2 e3 i3 i4
  rw [add_sub_right_comm, add_sub_right_comm] at e4
  rw [e1, e2, e3, e4, i1, i2, i3, i4]
  have w1 := W _ _ (Or.inl rfl) (Or.inl rfl)
  have w2 := W _ _ (Or.inl rfl) (Or.inr rfl)
  have w3 := W _ _ (Or.inr rfl) (Or.inl rfl)
  have w4 := W _ _ (Or.inr rfl) (Or.inr rfl)
  obtain ⟨le, lt⟩ := four_less ha w1.1 w2.1 w3.1 w4.1 f1 f2 f3 f4
  refine ⟨le, lt.trans ?_⟩
  constructor
  · rintro (⟨q, h⟩ | ⟨q, h⟩ | ⟨q, h⟩ | ⟨q, h⟩)
    · exact B.mpr ⟨_, _, Or.inl rfl, Or.inl rfl, q, fun c => h (g1.mpr c), by omega, by omega⟩
    · exact B.mpr ⟨_, _, Or.inl rfl, Or.inr rfl, q, fun c => h (g2.mpr c), by omega, by omega⟩
    · exact B.mpr ⟨_, _, Or.inr rfl, Or.inl rfl, q, fun c => h (g3.mpr c), by omega, by omega⟩
    · exact B.mpr ⟨_, _, Or.inr rfl, Or.inr rfl, q, fun c => h (g4.mpr c), by omega, by omega⟩
  · intro h
    obtain ⟨u, v, hu, hv, q, c, _⟩ := B.mp h
    rcases hu with rfl | rfl <;> rcases hv with rfl | rfl
    · exact Or.inl ⟨q, fun h => c (g1.mp h)⟩
    · exact Or.inr (Or.inl ⟨q, fun h => c (g2.mp h)⟩)
    · exact Or.inr (Or.inr (Or.inl ⟨q, fun h => c (g3.mp h)⟩))
    · exact Or.inr (Or.inr (Or.inr ⟨q, fun h => c (g4.mp h)⟩))

end

/-! ### A concrete case: eight by eight cells, two by two domains, a field of strength 5 after four steps -/

def exArea8 : Par ℚ := ⟨1, 1, 1, 1, 0, 8, 8, ⟨true, true, true, true⟩⟩

theorem exArea8_divided : Divided exArea8 2 2 := ⟨by decide, by decide, by decide, by decide, by decide, by decide, by decide, by decide, by decide⟩

/-- A point in the middle of the first domain: the field is the one of the undivided area. -/
example {m x : Mem ℚ} (em : run exArea8 "none" "const_z" [] [5] 4 = .ok m) (ex : run (domPar exArea8 2 2 0 0) "none" "const_z" [] [5] 4 = .ok x) :
    getH (22/7) (domGeom exArea8 2 2 0 0) x 2 (9/4) = getH (22/7) (areaGeom exArea8) m 2 (9/4) :=
  (C112_seen_partial (by decide +kernel) (by decide +kernel) (by decide) exArea8_divided (by decide) (by decide)
    ⟨by decide +kernel, by decide +kernel, by decide +kernel, by decide +kernel⟩ (by norm_num) (by decide +kernel)
    (by rintro (⟨h, _⟩ | ⟨_, h⟩ | ⟨_, h⟩) <;> revert h <;> decide +kernel) em ex).2

/-- A point in its last column: the field is weaker. -/
example : ∃ (x m : Mem ℚ) (hx hm : ℚ), run (domPar exArea8 2 2 0 0) "none" "const_z" [] [5] 4 = .ok x ∧
    run exArea8 "none" "const_z" [] [5] 4 = .ok m ∧
    getH (22/7) (domGeom exArea8 2 2 0 0) x 2 (15/4) = .ok ⟨0, 0, hx⟩ ∧ getH (22/7) (areaGeom exArea8) m 2 (15/4) = .ok ⟨0, 0, hm⟩ ∧ |hx| < |hm| := by
  obtain ⟨x, m, hx, hm, e1, e2, e3, e4, _, e6⟩ := C112_border_fails (p := exArea8) (i := 0) (j := 0) (r := 2) (z := 15/4) (by decide +kernel) (by decide +kernel)
    (by decide) exArea8_divided (by decide) (by decide) ⟨by decide +kernel, by decide +kernel, by decide +kernel, by decide +kernel⟩
    (show (0 : ℚ) < 22/7 by norm_num) ⟨by decide +kernel, by decide +kernel, by decide +kernel, by decide +kernel⟩ "none" [] (show (5 : ℚ) ≠ 0 by norm_num) [] 3
  exact ⟨x, m, hx, hm, e1, e2, e3, e4, e6.mpr (Or.inr (Or.inr ⟨by decide, by decide +kernel⟩))⟩

end Ext
end Pico
