import Verif.Spec.PicCause
import Verif.Props.PicSame
import Verif.Props.FieldMpi

/-! Property C123: how far a step carries influences along the axis. -/

set_option linter.unusedSimpArgs false
set_option linter.unusedVariables false
set_option linter.unusedSectionVars false

namespace Pico
namespace Pic

open SMB Yee

/-! ### Fields -/

theorem end_reach {w : Bool} {n n' : Nat} {hi Y : Int} (h1 : 1 ≤ n) (h2 : n < 2 ^ 32) (h1' : 1 ≤ n') (h2' : n' < 2 ^ 32) (r : Reaches n n' hi)
    (hY : Y ≤ hi) : Y < (end_ w n : Int) ↔ Y < (end_ w n' : Int) := by
  rcases r with rfl | ⟨r1, r2⟩
  · rfl
  · unfold end_
    split <;> omega

/-- The electric step in chambers of different length. -/
theorem calcE_long (p : Par ℝ) {n n' : Nat} (hr : 1 ≤ p.nr) (hr' : p.nr < 2 ^ 32) (h1 : 1 ≤ n) (h2 : n < 2 ^ 32) (h1' : 1 ≤ n') (h2' : n' < 2 ^ 32)
    {hi : Int} (r : Reaches n n' hi) {a b a' b' : Mem ℝ}
    (ea : calcE { p with nz := n } a = .ok a') (eb : calcE { p with nz := n' } b = .ok b') {X Y : Int} (hY : Y ≤ hi)
    (hl : Par.logical { p with nz := n } X Y) (hl' : Par.logical { p with nz := n' } X Y)
    (h0 : ∀ c, ¬ (c = .fr ∨ c = .fp ∨ c = .fz) → a c X Y = b c X Y)
    (hy : ∀ c, c.isMag = true → a c X (Y - 1) = b c X (Y - 1)) (hx : ∀ c, c.isMag = true → a c (X - 1) Y = b c (X - 1) Y) :
    ∀ c, isE c → a' c X Y = b' c X Y := by
  obtain ⟨a1, e1, _, _, k1⟩ := calcE_eq { p with nz := n } hr hr' h1 h2 a
  obtain ⟨b1, e2, _, _, k2⟩ := calcE_eq { p with nz := n' } hr hr' h1' h2' b
  rw [← Res.ok.inj (e1.symm.trans ea), ← Res.ok.inj (e2.symm.trans eb)]
  have l1 := k1 X Y hl
  have l2 := k2 X Y hl'
  dsimp only at l1 l2
  have nE : ∀ o v, newE { p with nz := n } a X Y o v = newE { p with nz := n' } b X Y o v := by
    intro o v
    unfold newE
    rw [h0 .eps (by decide), h0 .sig (by decide)]
    try rfl
  have xr : xR { p with nz := n } a X Y = xR { p with nz := n' } b X Y := by unfold xR; rw [h0 .jr (by decide), h0 .hp (by decide), hy .hp rfl]; try rfl
  have xp : xP { p with nz := n } a X Y = xP { p with nz := n' } b X Y := by
    unfold xP
    rw [h0 .jp (by decide), h0 .hr (by decide), hy .hr rfl, h0 .hz (by decide), hx .hz rfl]
    try rfl
  have xz : xZ { p with nz := n } a X Y = xZ { p with nz := n' } b X Y := by unfold xZ; rw [h0 .jz (by decide), h0 .hp (by decide), hx .hp rfl]; try rfl
  have xa : xA { p with nz := n } a X Y = xA { p with nz := n' } b X Y := by unfold xA; rw [h0 .jz (by decide), h0 .hp (by decide)]; try rfl
  have en := end_reach (w := p.walls.zz) h1 h2 h1' h2' r hY
  intro c hc
  rcases hc with rfl | rfl | rfl
  · rw [l1.1, l2.1, nE, xr, h0 .er (by decide)]
    simp only [en]
  · rw [l1.2.1, l2.2.1, nE, xp, h0 .ep (by decide)]
    simp only [en]
  · rw [l1.2.2, l2.2.2, nE, nE, xz, xa, h0 .ez (by decide)]
    simp only [en]

/-- The magnetic step in chambers of different length. -/
theorem calcH_long (p : Par ℝ) {n n' : Nat} (hr : 1 ≤ p.nr) {a b a' b' : Mem ℝ}
    (ea : calcH { p with nz := n } a = .ok a') (eb : calcH { p with nz := n' } b = .ok b') {X Y : Int}
    (hl : Par.logical { p with nz := n } X Y) (hl' : Par.logical { p with nz := n' } X Y)
    (h0 : ∀ c, isE c ∨ c.isMag = true → a c X Y = b c X Y) (hy : ∀ c, isE c → a c X (Y + 1) = b c X (Y + 1))
    (hx : ∀ c, isE c → a c (X + 1) Y = b c (X + 1) Y) : ∀ c, isH c → a' c X Y = b' c X Y := by
  obtain ⟨a1, e1, _, k1, _⟩ := calcH_eq { p with nz := n } hr a
  obtain ⟨b1, e2, _, k2, _⟩ := calcH_eq { p with nz := n' } hr b
  rw [← Res.ok.inj (e1.symm.trans ea), ← Res.ok.inj (e2.symm.trans eb)]
  obtain ⟨⟨m1, m2⟩, m3, m4, m5, m6⟩ := k1 X Y hl
  obtain ⟨⟨n1, n2⟩, n3, n4, n5, n6⟩ := k2 X Y hl'
  have er : isE Comp.er := Or.inl rfl
  have ep : isE Comp.ep := Or.inr (Or.inl rfl)
  have ez : isE Comp.ez := Or.inr (Or.inr rfl)
  have xr : aR { p with nz := n } a X Y = aR { p with nz := n' } b X Y := by unfold aR; rw [h0 .ep (Or.inl ep), hy .ep ep]; try rfl
  have xp : aP { p with nz := n } a X Y = aP { p with nz := n' } b X Y := by
    unfold aP
    rw [h0 .ez (Or.inl ez), h0 .er (Or.inl er), hx .ez ez, hy .er er]
    try rfl
  have xz : aZ { p with nz := n } a X Y = aZ { p with nz := n' } b X Y := by unfold aZ; rw [h0 .ep (Or.inl ep), hx .ep ep]; try rfl
  have hr := h0 .hr (Or.inr rfl)
  have hp := h0 .hp (Or.inr rfl)
  have hz := h0 .hz (Or.inr rfl)
  intro c hc
  rcases hc with rfl | rfl | rfl | rfl | rfl | rfl
  · rw [m1, n1, xr, hr]
  · rw [m3, n3, xp, hp]
  · rw [m5, n5, xz, hz]
  · rw [m2, n2, xr, hr]
  · rw [m4, n4, xp, hp]
  · rw [m6, n6, xz, hz]

/-- The field step of an undivided area. -/
theorem maxwell_one (p : Par ℝ) (hd : Divided p 1 1) (M : Solvers ℝ) :
    ∃ M1 e1 e2, solveMaxwell (domPar p 1 1) 1 1 M = .ok M1 ∧ calcE p (M 0 0) = .ok e1 ∧ calcH p e1 = .ok e2 ∧
      (∀ c x y, c.isSource = false → p.inside x y → M1 0 0 c x y = e2 c x y) ∧
      ∀ c x y, c.isSource = true → M1 0 0 c x y = M 0 0 c x y := by
  have e : (fun i j => setSources (M i j) (M i j)) = M := by
    funext i j c x y
    exact ite_self _
  have e0 : setSources (M 0 0) (M 0 0) = M 0 0 := congrFun (congrFun e 0) 0
  obtain ⟨M1, m1, e1, e2, W, k⟩ := C62_step p hd (fun c _ => windows_single p c M) (loc := fun i j => M i j) (src := M 0 0) (by
    rintro i j x y c _ ⟨hi, hj, _⟩
    obtain rfl : i = 0 := by omega
    obtain rfl : j = 0 := by omega
    rw [low_one, low_one]
    congr 1 <;> omega)
  rw [e] at e1
  rw [e0] at e2
  obtain ⟨u, u1, u2⟩ := Res.bind_ok e2
  refine ⟨M1, u, m1, e1, u1, u2, fun c x y hc hin => ?_, fun c x y hc => k 0 0 c x y (by omega) (by omega) hc⟩
  unfold Par.inside at hin
  exact single_window (W c hc) (by omega) (by omega)

/-- The field step carries influences by one column. -/
theorem cause_fields (p : Par ℝ) {n n' : Nat} (hd : Divided { p with nz := n } 1 1) (hd' : Divided { p with nz := n' } 1 1) {lo hi : Int}
    (r : Reaches n n' hi) {M N M1 N1 : Solvers ℝ}
    (hf : ∀ (c : Yee.Comp) (x y : Int), c.isSource = false → (-2 ≤ x ∧ x < p.nr + 2) → (-2 ≤ y ∧ y < n + 2) → lo ≤ y → y ≤ hi → M 0 0 c x y = N 0 0 c x y)
    (hs : ∀ (c : Yee.Comp) (x y : Int), c.isSource = true → (0 ≤ x ∧ x < p.nr) → (0 ≤ y ∧ y < n) → lo ≤ y → y ≤ hi → M 0 0 c x y = N 0 0 c x y)
    (eM : solveMaxwell (domPar { p with nz := n } 1 1) 1 1 M = .ok M1) (eN : solveMaxwell (domPar { p with nz := n' } 1 1) 1 1 N = .ok N1) :
    (∀ (c : Yee.Comp) (x y : Int), c.isSource = false → (-2 ≤ x ∧ x < p.nr + 2) → (-2 ≤ y ∧ y < n + 2) → lo + 1 ≤ y → y ≤ hi - 1 → M1 0 0 c x y = N1 0 0 c x y) ∧
    (∀ (c : Yee.Comp) (x y : Int), c.isSource = true → (0 ≤ x ∧ x < p.nr) → (0 ≤ y ∧ y < n) → lo ≤ y → y ≤ hi → M1 0 0 c x y = N1 0 0 c x y) := by
  obtain ⟨M2, a1, a2, u1, u2, u3, u4, u5⟩ := maxwell_one _ hd M
  obtain rfl := Res.ok.inj (eM.symm.trans u1)
  obtain ⟨N2, b1, b2, v1, v2, v3, v4, v5⟩ := maxwell_one _ hd' N
  obtain rfl := Res.ok.inj (eN.symm.trans v1)
  have d1 : 2 * 1 ≤ p.nr := hd.r2
  have d2 : p.nr < 2 ^ 31 := hd.r3
  have d3 : 2 * 1 ≤ n := hd.z2
  have d4 : n < 2 ^ 31 := hd.z3
  have d5 : 2 * 1 ≤ n' := hd'.z2
  have d6 : n' < 2 ^ 31 := hd'.z3
  have fld : ∀ c, isE c ∨ isH c → c.isSource = false := fun c h => by
    cases e : c.isSource
    · rfl
    · exact absurd h ((source_iff c).mp e)
  have EH : ∀ c, isE c → ¬ isH c := fun c h => by unfold isE at h; unfold isH; rcases h with rfl | rfl | rfl <;> decide
  have lg : ∀ {X Y : Int}, Y ≤ hi → (Par.logical { p with nz := n } X Y ↔ Par.logical { p with nz := n' } X Y) := by
    intro X Y hY
    unfold Par.logical
    dsimp only
    rcases r with rfl | ⟨r1, r2⟩
    · rfl
    · omega
  have ins : ∀ {X Y : Int}, Y ≤ hi → (Par.inside { p with nz := n } X Y ↔ Par.inside { p with nz := n' } X Y) := by
    intro X Y hY
    unfold Par.inside
    dsimp only
    rcases r with rfl | ⟨r1, r2⟩
    · rfl
    · omega
  obtain ⟨a1', p1, p2, p3, _⟩ := calcE_eq { p with nz := n } (by show 1 ≤ p.nr; omega) (by show p.nr < _; omega) (by show 1 ≤ n; omega) (by show n < _; omega) (M 0 0)
  obtain rfl := Res.ok.inj (p1.symm.trans u2)
  obtain ⟨b1', q1, q2, q3, _⟩ := calcE_eq { p with nz := n' } (by show 1 ≤ p.nr; omega) (by show p.nr < _; omega) (by show 1 ≤ n'; omega) (by show n' < _; omega) (N 0 0)
  obtain rfl := Res.ok.inj (q1.symm.trans v2)
  obtain ⟨a2', p4, p5, _, p6⟩ := calcH_eq { p with nz := n } (by show 1 ≤ p.nr; omega) a1'
  obtain rfl := Res.ok.inj (p4.symm.trans u3)
  obtain ⟨b2', q4, q5, _, q6⟩ := calcH_eq { p with nz := n' } (by show 1 ≤ p.nr; omega) b1'
  obtain rfl := Res.ok.inj (q4.symm.trans v3)
  -- the electric field
  have elec : ∀ c, isE c → ∀ X Y, Par.inside { p with nz := n } X Y → lo + 1 ≤ Y → Y ≤ hi → a1' c X Y = b1' c X Y := by
    intro c hc X Y hin h1 h2
    by_cases hl : Par.logical { p with nz := n } X Y
    · have hl1 := hl
      unfold Par.logical at hl1
      dsimp only at hl1
      refine calcE_long p (by omega) (by omega) (by omega) (by omega) (by omega) (by omega) r u2 v2 h2 hl ((lg h2).mp hl) ?_ ?_ ?_ c hc
      · intro c' hc'
        cases e : c'.isSource
        · exact hf c' X Y e (by omega) (by omega) (by omega) h2
        · exact hs c' X Y e (by omega) (by omega) (by omega) h2
      · intro c' hm
        exact hf c' X (Y - 1) (fld c' (Or.inr (isMag_isH hm))) (by omega) (by omega) (by omega) (by omega)
      · intro c' hm
        exact hf c' (X - 1) Y (fld c' (Or.inr (isMag_isH hm))) (by omega) (by omega) (by omega) h2
    · rw [p3 c X Y hc hin hl, q3 c X Y hc ((ins h2).mp hin) (fun k => hl ((lg h2).mpr k))]
  refine ⟨fun c x y hc hx hy h1 h2 => ?_, fun c x y hc hx hy h1 h2 => ?_⟩
  · have hin : Par.inside { p with nz := n } x y := by unfold Par.inside; dsimp only; omega
    rw [u4 c x y hc hin, v4 c x y hc ((ins (by omega)).mp hin)]
    have hEH : isE c ∨ isH c := by
      by_contra q
      have := (source_iff c).mpr q
      rw [hc] at this
      exact nomatch this
    rcases hEH with hE | hH
    · rw [p5 c x y (EH c hE), q5 c x y (EH c hE)]
      exact elec c hE x y hin h1 (by omega)
    · by_cases hl : Par.logical { p with nz := n } x y
      · have hl1 := hl
        unfold Par.logical at hl1
        dsimp only at hl1
        refine calcH_long p (by omega) u3 v3 hl ((lg (by omega)).mp hl) ?_ ?_ ?_ c hH
        · rintro c' (hE | hm)
          · exact elec c' hE x y hin h1 (by omega)
          · have nE : ¬ isE c' := fun q => EH c' q (isMag_isH hm)
            rw [p2 c' x y nE, q2 c' x y nE]
            exact hf c' x y (fld c' (Or.inr (isMag_isH hm))) hx hy (by omega) (by omega)
        · intro c' hE
          exact elec c' hE x (y + 1) (by unfold Par.inside; dsimp only; omega) (by omega) (by omega)
        · intro c' hE
          exact elec c' hE (x + 1) y (by unfold Par.inside; dsimp only; omega) (by omega) (by omega)
      · rw [p6 c x y hH hin hl, q6 c x y hH ((ins (by omega)).mp hin) (fun k => hl ((lg (by omega)).mpr k))]
  · rw [u5 c x y hc, v5 c x y hc]
    exact hs c x y hc hx hy h1 h2

/-! ### Forces -/

/-- Only the columns next to a particle matter for what it sees. -/
theorem seen_near {g : Geom ℝ} (G : g.Good) {r z : ℝ} (hr : g.dr / 2 ≤ r) {α β : ℝ} (hα : 0 ≤ α) (hβ : 0 ≤ β) (hβ' : β ≤ 1 / 2) (hz0 : g.z0 = 0)
    (f : Int → Int → ℝ) (h1 : 0 ≤ ⌊z / g.dz⌋) (h2 : ⌊z / g.dz⌋ < g.nz) :
    Interp.seen g α β f r z = ∑ a ∈ Finset.Icc (-2 : Int) (g.nr + 1), ∑ b ∈ Finset.Icc (⌊z / g.dz⌋ - 1) (⌊z / g.dz⌋ + 1),
      Interp.seenWeight g α β r z (a + g.r0) b * f a b := by
  unfold Interp.seen
  refine Finset.sum_congr rfl fun a _ => ?_
  symm
  have hsub : Finset.Icc (⌊z / g.dz⌋ - 1) (⌊z / g.dz⌋ + 1) ⊆ Finset.Icc (-2 : Int) (g.nz + 1) := by
    intro b hb
    rw [Finset.mem_Icc] at hb ⊢
    omega
  rw [hz0]
  simp only [Nat.cast_zero, add_zero]
  refine Finset.sum_subset hsub fun b _ hb => ?_
  by_contra ne
  have w : Interp.seenWeight g α β r z (a + g.r0) b ≠ 0 := fun e => ne (by rw [e, zero_mul])
  obtain ⟨_, hw⟩ := (Interp.C23_weights G hr α β hα (a + g.r0) b).2 w
  apply hb
  have dz := G.dz
  rw [abs_lt] at hw
  have k1 : (⌊z / g.dz⌋ : ℝ) ≤ z / g.dz := Int.floor_le _
  have k2 : z / g.dz < ⌊z / g.dz⌋ + 1 := Int.lt_floor_add_one _
  rw [le_div_iff₀ dz] at k1
  rw [div_lt_iff₀ dz] at k2
  have c1 : (⌊z / g.dz⌋ : ℝ) - 2 < b := by
    by_contra q
    push Not at q
    nlinarith [mul_le_mul_of_nonneg_right q dz.le, mul_le_mul_of_nonneg_right hβ' dz.le]
  have c2 : (b : ℝ) < ⌊z / g.dz⌋ + 2 := by
    by_contra q
    push Not at q
    nlinarith [mul_le_mul_of_nonneg_right q dz.le, mul_nonneg hβ dz.le]
  have c1 : ⌊z / g.dz⌋ - 2 < b := by exact_mod_cast c1
  have c2 : b < ⌊z / g.dz⌋ + 2 := by exact_mod_cast c2
  rw [Finset.mem_Icc]
  omega

theorem seen_long {g g' : Geom ℝ} (G : g.Good) (G' : g'.Good) (e1 : g.dr = g'.dr) (e2 : g.dz = g'.dz) (e3 : g.r0 = g'.r0) (e4 : g.nr = g'.nr) (z0 : g.z0 = 0)
    (z0' : g'.z0 = 0) {r z : ℝ} (hr : g.dr / 2 ≤ r) {α β : ℝ} (hα : 0 ≤ α) (hβ : 0 ≤ β) (hβ' : β ≤ 1 / 2) {f f' : Int → Int → ℝ} (h1 : 0 ≤ ⌊z / g.dz⌋)
    (h2 : ⌊z / g.dz⌋ < g.nz) (h2' : ⌊z / g.dz⌋ < g'.nz)
    (hf : ∀ x y, (-2 ≤ x ∧ x < (g.nr : Int) + 2) → ⌊z / g.dz⌋ - 1 ≤ y → y ≤ ⌊z / g.dz⌋ + 1 → f x y = f' x y) :
    Interp.seen g α β f r z = Interp.seen g' α β f' r z := by
  rw [seen_near G hr hα hβ hβ' z0 f h1 h2, seen_near G' (by rw [← e1]; exact hr) hα hβ hβ' z0' f' (by rw [← e2]; exact h1) (by rw [← e2]; exact h2')]
  have w : ∀ a b, Interp.seenWeight g α β r z a b = Interp.seenWeight g' α β r z a b := by
    intro a b
    unfold Interp.seenWeight
    rw [e1, e2]
  rw [e4, e3, e2]
  rw [e2, e4] at hf
  refine Finset.sum_congr rfl fun a ha => Finset.sum_congr rfl fun b hb => ?_
  rw [Finset.mem_Icc] at ha hb
  rw [w, hf a b (by omega) hb.1 hb.2]

section
variable {E : Env} {n n' : Nat} (h : Chamber (E.long n)) (h' : Chamber (E.long n'))
include h

theorem long_geom : (E.long n).geom 0 0 = ⟨E.p.dr, E.p.dz, 0, 0, E.p.nr, n⟩ := by
  rw [geom_eq h]
  show (⟨E.p.dr, E.p.dz, low E.p.nr 1 0, low n 1 0, hgt E.p.nr 1 0, hgt n 1 0⟩ : Geom ℝ) = _
  rw [low_one, low_one, hgt_one, hgt_one]

/-- A particle in its place has its cell in the chamber. -/
theorem long_cell {a : Part ℝ} (ha : InPlace (E.long n) 0 0 a) :
    (0 ≤ ⌊a.posR / E.p.dr⌋ ∧ ⌊a.posR / E.p.dr⌋ < E.p.nr) ∧ 0 ≤ ⌊a.posZ / E.p.dz⌋ ∧ ⌊a.posZ / E.p.dz⌋ < n ∧ (a.cellZ : Int) = ⌊a.posZ / E.p.dz⌋ := by
  have dr : 0 < E.p.dr := h.good.geo.dr
  have dz : 0 < E.p.dz := h.good.geo.dz
  have d := ha.dom
  rw [long_geom h] at d
  have d1 := d.rhi
  have d2 := d.zhi
  dsimp only at d1 d2
  have r1 : E.p.dr / 2 ≤ a.posR := ha.r1
  have z1 : E.p.dz / 2 ≤ a.posZ := ha.z1
  refine ⟨⟨Int.floor_nonneg.mpr (div_nonneg (by linarith) dr.le), ?_⟩, Int.floor_nonneg.mpr (div_nonneg (by linarith) dz.le), ?_, ha.cellZ⟩
  · rw [Int.floor_lt, div_lt_iff₀ dr]
    push_cast
    simpa using d1
  · rw [Int.floor_lt, div_lt_iff₀ dz]
    push_cast
    simpa using d2

include h'

/-- The push reads the columns next to the particle. -/
theorem push_long {a : Part ℝ} (ha : InPlace (E.long n) 0 0 a) (ha' : InPlace (E.long n') 0 0 a) {m m' : Mem ℝ}
    (hm : ∀ (c : Yee.Comp) (x y : Int), c.isSource = false → (-2 ≤ x ∧ x < E.p.nr + 2) → (a.cellZ : Int) - 1 ≤ y → y ≤ (a.cellZ : Int) + 1 → m c x y = m' c x y)
    (id : Nat) (junk : Bool) :
    Pusher.push E.kind (E.pushPar id) junk E.e.pi ((E.long n).geom 0 0) m a.posR a.posZ (vel a) =
    Pusher.push E.kind (E.pushPar id) junk E.e.pi ((E.long n').geom 0 0) m' a.posR a.posZ (vel a) := by
  have dr : 0 < E.p.dr := h.good.geo.dr
  have dz : 0 < E.p.dz := h.good.geo.dz
  have r1 : E.p.dr / 2 ≤ a.posR := ha.r1
  have G := geom_good h (i := 0) (j := 0) Nat.one_pos Nat.one_pos
  have G' := geom_good h' (i := 0) (j := 0) Nat.one_pos Nat.one_pos
  have d := ha.dom
  have d' := ha'.dom
  obtain ⟨⟨f1, f2⟩, f3, f4, f5⟩ := long_cell h ha
  obtain ⟨_, _, f6, _⟩ := long_cell h' ha'
  rw [f5] at hm
  rw [long_geom h] at G d
  rw [long_geom h'] at G' d'
  have c1 := Interp.C23_electric_partial h.good.pi G d r1 m
  have c2 := Interp.C23_magnetic h.good.pi G d r1 m
  have c1' := Interp.C23_electric_partial h.good.pi G' d' r1 m'
  have c2' := Interp.C23_magnetic h.good.pi G' d' r1 m'
  dsimp only at c1 c1'
  have s : ∀ (c : Yee.Comp) (α β : ℝ), c.isSource = false → 0 ≤ α → 0 ≤ β → β ≤ 1 / 2 →
      Interp.seen (⟨E.p.dr, E.p.dz, 0, 0, E.p.nr, n⟩ : Geom ℝ) α β (m c) a.posR a.posZ =
      Interp.seen (⟨E.p.dr, E.p.dz, 0, 0, E.p.nr, n'⟩ : Geom ℝ) α β (m' c) a.posR a.posZ := by
    intro c α β hc hα hβ hβ'
    exact seen_long G G' rfl rfl rfl rfl rfl rfl r1 hα hβ hβ' f3 (by exact_mod_cast f4) (by exact_mod_cast f6) (fun x y hx h1 h2 => hm c x y hc hx h1 h2)
  rw [long_geom h, long_geom h']
  unfold Pusher.push
  have c1 : Interp.getE E.e.pi (⟨E.p.dr, E.p.dz, 0, 0, E.p.nr, n⟩ : Geom ℝ) m a.posR a.posZ = _ := c1
  have c2 : Interp.getH E.e.pi (⟨E.p.dr, E.p.dz, 0, 0, E.p.nr, n⟩ : Geom ℝ) m a.posR a.posZ = _ := c2
  have c1' : Interp.getE E.e.pi (⟨E.p.dr, E.p.dz, 0, 0, E.p.nr, n'⟩ : Geom ℝ) m' a.posR a.posZ = _ := c1'
  have c2' : Interp.getH E.e.pi (⟨E.p.dr, E.p.dz, 0, 0, E.p.nr, n'⟩ : Geom ℝ) m' a.posR a.posZ = _ := c2'
  rw [c1, c2, c1', c2', Res.ok_bind, Res.ok_bind, Res.ok_bind, Res.ok_bind, s .er _ _ rfl (by norm_num) (by norm_num) (by norm_num), s .ep _ _ rfl (by norm_num) (by norm_num) (by norm_num),
    s .ez _ _ rfl (by norm_num) (by norm_num) (by norm_num), s .fr _ _ rfl (by norm_num) (by norm_num) (by norm_num), s .fp _ _ rfl (by norm_num) (by norm_num) (by norm_num),
    s .fz _ _ rfl (by norm_num) (by norm_num) (by norm_num), hm .ep _ _ rfl (by simp only [Nat.cast_zero]; omega) (by simp only [Nat.cast_zero]; omega) (by simp only [Nat.cast_zero]; omega)]
  rfl

/-- Away from the right wall the length of the chamber does not matter for the move. -/
theorem landed_long {a : Part ℝ} {v : Vec3 ℝ} (ha : InPlace (E.long n) 0 0 a) (hv : v.length2 < E.c ^ 2) {hi : Int} (r : Reaches n n' hi)
    (ht : (a.cellZ : Int) + 1 ≤ hi) : landed (E.long n) a v = landed (E.long n') a v := by
  rcases r with rfl | ⟨r1, r2⟩
  · rfl
  have dz : 0 < E.p.dz := h.good.geo.dz
  obtain ⟨_, n2⟩ := land_near h ha hv
  obtain ⟨_, _, _, f5⟩ := long_cell h ha
  have k2 : a.posZ / E.p.dz < ⌊a.posZ / E.p.dz⌋ + 1 := Int.lt_floor_add_one _
  rw [div_lt_iff₀ dz, ← f5] at k2
  have n2 : |landZ (E.long n) a v - a.posZ| < E.p.dz := n2
  rw [abs_lt] at n2
  have far : ∀ N : Nat, hi + 2 ≤ N → ¬ ((N : ℝ) * E.p.dz - E.p.dz / 2 < landZ (E.long n) a v) := by
    intro N hN
    have : ((a.cellZ : Int) : ℝ) + 3 ≤ N := by exact_mod_cast (by omega : (a.cellZ : Int) + 3 ≤ N)
    have := mul_le_mul_of_nonneg_right this dz.le
    push_cast at this k2
    nlinarith
  have m1 : ∀ N : Nat, hi + 2 ≤ N → Part.mirX true true E.p.dz (N * E.p.dz) (landZ (E.long n) a v) = if landZ (E.long n) a v < E.p.dz / 2 then E.p.dz - landZ (E.long n) a v else landZ (E.long n) a v := by
    intro N hN
    unfold Part.mirX
    simp [far N hN]
  have m2 : ∀ N : Nat, hi + 2 ≤ N → Part.mirV true true E.p.dz (N * E.p.dz) (landZ (E.long n) a v) v.z = if landZ (E.long n) a v < E.p.dz / 2 then -v.z else v.z := by
    intro N hN
    unfold Part.mirV
    simp [far N hN]
  have x1 : Part.mirX true true E.p.dz (n * E.p.dz) (landZ (E.long n) a v) = Part.mirX true true E.p.dz (n' * E.p.dz) (landZ (E.long n) a v) := by rw [m1 n r1, m1 n' r2]
  have x2 : Part.mirV true true E.p.dz (n * E.p.dz) (landZ (E.long n) a v) v.z = Part.mirV true true E.p.dz (n' * E.p.dz) (landZ (E.long n) a v) v.z := by rw [m2 n r1, m2 n' r2]
  unfold landed
  dsimp only
  change Part.mk _ _ (Part.mirX true true E.p.dz (n * E.p.dz) (landZ (E.long n) a v)) _ _ _ _ _ (Part.mirV true true E.p.dz (n * E.p.dz) (landZ (E.long n) a v) v.z) _ _ _ (Part.toSizeT ⌊Part.mirX true true E.p.dz (n * E.p.dz) (landZ (E.long n) a v) / E.p.dz⌋) _ _ = _
  rw [x1, x2]
  rfl
end

/-! ### One step -/

theorem mem_long {E : Env} {n : Nat} {D : Doms} {id t : Nat} : t ∈ tagsOf (E.long n) D id ↔ t ∈ tagsOf E.whole D id := by
  rw [mem_tags, mem_tags]
  rfl

theorem Alike.symm {E : Env} {ids : List Nat} {n n' : Nat} {lo hi : Int} {S T : State} (r : Reaches n n' hi) (Q : Alike E ids n lo hi S T) :
    Alike E ids n' lo hi T S := by
  have r' : ∀ y : Int, y ≤ hi → y < n' + 2 → y < n + 2 := by rcases r with rfl | ⟨r1, r2⟩ <;> intros <;> omega
  have r'' : ∀ y : Int, y ≤ hi → y < n' → y < n := by rcases r with rfl | ⟨r1, r2⟩ <;> intros <;> omega
  refine ⟨fun c x y hc hx hy h1 h2 => (Q.fields c x y hc hx ⟨hy.1, r' y h2 hy.2⟩ h1 h2).symm,
    fun c x y hc hx hy h1 h2 => (Q.sources c x y hc hx ⟨hy.1, r'' y h2 hy.2⟩ h1 h2).symm, fun id hid t => (Q.lists id hid t).symm, fun id hid t ht hb => ?_⟩
  obtain ⟨a, b⟩ := (Q.lists id hid t).mpr ⟨ht, hb⟩
  exact (Q.heap id hid t a b).symm

section
variable {E : Env} {n : Nat} (h : Chamber (E.long n)) (hk : Pusher.Relativistic E.kind) (hc : HalfCell E) {ids : List Nat} {S S' : State} (A : Alive (E.long n) ids S)
  {M1 : Solvers ℝ} (e1 : solveMaxwell (domPar (E.long n).p 1 1) 1 1 S.M = .ok M1) (st : Step (E.long n) S S') {id t : Nat} (ht : t ∈ tagsOf E.whole S.D id)
include h hk hc A e1 st ht

/-- What a step does to a particle. -/
theorem moved : ∃ v, InPlace (E.long n) 0 0 (S.heap t) ∧
    (∀ junk, Pusher.push E.kind (E.pushPar id) junk E.e.pi ((E.long n).geom 0 0) (M1 0 0) (S.heap t).posR (S.heap t).posZ (vel (S.heap t)) = .ok v) ∧
    v.length2 < E.c ^ 2 ∧ S'.heap t = landed (E.long n) (S.heap t) v ∧ (S'.heap t).oldZ = (S.heap t).posZ ∧
    ((S'.heap t).cellZ : Int) = ⌊(S'.heap t).posZ / E.p.dz⌋ ∧ ((S.heap t).cellZ : Int) = ⌊(S.heap t).posZ / E.p.dz⌋ ∧
    ((S.heap t).cellZ : Int) - 1 ≤ (S'.heap t).cellZ ∧ ((S'.heap t).cellZ : Int) ≤ (S.heap t).cellZ + 1 := by
  have B := no_border h hk rfl rfl hc A
  obtain ⟨i, j, hi, hj, sp, hsp, rfl, o, ho, rfl⟩ := mem_tags.mp ht
  have i0 : i = 0 := Nat.lt_one_iff.mp hi
  have j0 : j = 0 := Nat.lt_one_iff.mp hj
  subst i0 j0
  obtain ⟨v, p1, p2, p3⟩ := moves_iff h hk A B e1 (i := 0) (j := 0) Nat.one_pos Nat.one_pos hsp ho
  have pl := A.place 0 0 Nat.one_pos Nat.one_pos sp hsp o ho
  obtain ⟨M1', g1, g2, _⟩ := st
  obtain rfl := Res.ok.inj (e1.symm.trans g1)
  have x := (p3 _).mp (g2 0 0 Nat.one_pos Nat.one_pos sp hsp o ho)
  obtain ⟨_, _, _, c3, _⟩ := landed_cells h pl p2
  obtain ⟨_, _, _, c4⟩ := landed_range h pl p2
  have f := floor_near h (d := E.p.dz) h.good.geo.dz c4
  obtain ⟨_, _, _, f5⟩ := long_cell h pl
  rw [x]
  have c3 : ((landed (E.long n) (S.heap o.tag) v).cellZ : Int) = ⌊(landed (E.long n) (S.heap o.tag) v).posZ / E.p.dz⌋ := c3
  refine ⟨v, pl, p1, p2, rfl, rfl, c3, f5, ?_, ?_⟩ <;> rw [c3, f5]
  · exact f.1
  · exact f.2
end

theorem sum_near {L L' : List Nat} (nL : L.Nodup) (nL' : L'.Nodup) {f f' : Nat → ℝ} {P P' : Nat → Prop} (h1 : ∀ t ∈ L, f t ≠ 0 → P t)
    (h2 : ∀ t ∈ L', f' t ≠ 0 → P' t) (h3 : ∀ t ∈ L, P t → t ∈ L' ∧ P' t ∧ f t = f' t) (h4 : ∀ t ∈ L', P' t → t ∈ L ∧ P t) :
    (L.map f).sum = (L'.map f').sum := by
  classical
  rw [← List.sum_toFinset _ nL, ← List.sum_toFinset _ nL', ← Finset.sum_filter_of_ne (p := P) (fun t ht h0 => h1 t (List.mem_toFinset.mp ht) h0),
    ← Finset.sum_filter_of_ne (p := P') (fun t ht h0 => h2 t (List.mem_toFinset.mp ht) h0)]
  refine Finset.sum_congr ?_ ?_
  · ext t
    rw [Finset.mem_filter, Finset.mem_filter, List.mem_toFinset, List.mem_toFinset]
    exact ⟨fun k => ⟨(h3 t k.1 k.2).1, (h3 t k.1 k.2).2.1⟩, fun k => h4 t k.1 k.2⟩
  · intro t ht
    rw [Finset.mem_filter, List.mem_toFinset] at ht
    obtain ⟨a, b⟩ := h4 t ht.1 ht.2
    exact (h3 t a b).2.2

/-- The currents of the undivided chamber: the sum over the particles. -/
theorem current_one {E : Env} {n : Nat} (h : Chamber (E.long n)) {ids : List Nat} (nd : ids.Nodup) {heap : Nat → Part ℝ} {D : Doms} (hD : ∀ i j, (D i j).map Sp.id = ids)
    (hp : Housed (E.long n).p 1 1 E.e (depositsOf (E.long n) heap D)) {M M' : Solvers ℝ}
    (e : solveCurrent ZigZag.currentDistribution (E.long n).p 1 1 E.e (depositsOf (E.long n) heap D) M = .ok M') {c : Yee.Comp} (hc : c = .jr ∨ c = .jp ∨ c = .jz)
    {x y : Int} (hx : 0 ≤ x ∧ x < E.p.nr) (hy : 0 ≤ y ∧ y < n) :
    M' 0 0 c x y = (ids.map fun id => ((tagsOf (E.long n) D id).map fun t => zz (ctxOf E.p 0 E.e) (depositOf (E.charge id) (heap t)) c x y).sum).sum := by
  have q := deposits_perm (E.long n) heap nd hD
  obtain ⟨X, m', x1, x2, x3⟩ := C96_zigzag_partial (E.long n).p h.div E.e h.good (depositsOf (E.long n) heap D) hp (by
    intro a b ha hb q hq
    show ¬ CutsCorner (E.long n).p 1 1 a b q
    unfold CutsCorner
    omega) _ q.symm M (M 0 0)
  obtain rfl := Res.ok.inj (e.symm.trans x1)
  have l1 : low E.p.nr 1 0 = 0 := low_one _
  have l2 : low n 1 0 = 0 := low_one _
  have cell : CellOf (E.long n).p 1 1 0 0 x y := ⟨Nat.one_pos, Nat.one_pos, by show _ ∧ _ < (hgt E.p.nr 1 0 : Int); rw [hgt_one]; exact hx,
    by show _ ∧ _ < (hgt n 1 0 : Int); rw [hgt_one]; exact hy⟩
  have v := x3 0 0 c x y hc cell
  have i0 := cell_inside h.div E.e cell
  change _ = m' c ((low E.p.nr 1 0 : Nat) + x) ((low n 1 0 : Nat) + y) at v
  change VB.insideG _ ((low E.p.nr 1 0 : Nat) + x) ((low n 1 0 : Nat) + y) at i0
  rw [l1, l2, Nat.cast_zero, zero_add, zero_add] at v i0
  obtain ⟨m2, e4, v2, _⟩ := zz_run (ctxOf (E.long n).p 0 E.e) h.good _ (fun q' hq => by
    obtain ⟨a, b, ha, hb, _, hq⟩ := mem_partsOf.mp (q.symm.mem_iff.mp hq)
    have := hp a b ha hb q' hq
    exact ⟨dom_bound h.div E.e h.good ha hb this.1, dom_near h.div E.e this.2⟩) (M 0 0)
  obtain rfl := Res.ok.inj (x2.symm.trans e4)
  rw [v, v2 c hc x y i0]
  clear * -
  induction ids with
  | nil => rfl
  | cons a l ih =>
    rw [List.flatMap_cons, List.map_append, List.sum_append, ih, List.map_cons, List.sum_cons, List.map_map]
    rfl

section
variable {E : Env} {n n' : Nat} (h : Chamber (E.long n)) (h' : Chamber (E.long n')) (hk : Pusher.Relativistic E.kind) (hz : E.dist = ZigZag.currentDistribution)
  (hc : HalfCell E) {ids : List Nat} (nd : ids.Nodup) {lo hi : Int} (r : Reaches n n' hi)
include h h' hk hc r

theorem moved_alike {S T S' T' : State} (A : Alive (E.long n) ids S) (A' : Alive (E.long n') ids T) (Q : Alike E ids n lo hi S T)
    (st : Step (E.long n) S S') (st' : Step (E.long n') T T') {id t : Nat} (hid : id ∈ ids) (ht : t ∈ tagsOf E.whole S.D id)
    (hb : Between (lo + 2) (hi - 2) (S.heap t)) : t ∈ tagsOf E.whole T.D id ∧ Between (lo + 2) (hi - 2) (T.heap t) ∧ S'.heap t = T'.heap t := by
  have hb0 : Between lo hi (S.heap t) := ⟨by have := hb.1; omega, by have := hb.2; omega⟩
  have eh := Q.heap id hid t ht hb0
  obtain ⟨m, _⟩ := (Q.lists id hid t).mp ⟨ht, hb0⟩
  refine ⟨m, eh ▸ hb, ?_⟩
  obtain ⟨M1, e1, _⟩ := _root_.id st
  obtain ⟨N1, e2, _⟩ := _root_.id st'
  obtain ⟨v, a1, a2, a3, a4, _⟩ := moved h hk hc A e1 st ht
  obtain ⟨u, b1, b2, b3, b4, _⟩ := moved h' hk hc A' e2 st' m
  have cf := (cause_fields E.p h.div h'.div r Q.fields Q.sources e1 e2).1
  obtain ⟨_, f3, f4, f5⟩ := long_cell h a1
  rw [← f5] at f3 f4
  have hb1 := hb.1
  have hb2 := hb.2
  rw [← eh] at b1 b2
  have ep := push_long h h' a1 b1 (m := M1 0 0) (m' := N1 0 0) (fun c x y hc hx h1 h2 => cf c x y hc hx (by omega) (by omega) (by omega)) id true
  obtain rfl := Res.ok.inj ((a2 true).symm.trans (ep.trans (b2 true)))
  rw [a4, b4, ← eh]
  exact landed_long h h' a1 a3 r (by omega)

include hz nd

theorem step_alike {S T S' T' : State} (A : Alive (E.long n) ids S) (A' : Alive (E.long n') ids T) (Q : Alike E ids n lo hi S T)
    (st : Step (E.long n) S S') (st' : Step (E.long n') T T') : Alike E ids n (lo + 4) (hi - 4) S' T' := by
  have B := no_border h hk rfl rfl hc A
  have B' := no_border h' hk rfl rfl hc A'
  obtain ⟨X, s1, s2, s3, s4⟩ := step_all h hk (hz ▸ zz_sound) nd A B
  obtain rfl := (s1 _).mp st
  obtain ⟨Y, t1, t2, t3, t4⟩ := step_all h' hk (hz ▸ zz_sound) nd A' B'
  obtain rfl := (t1 _).mp st'
  have mS : ∀ id ∈ ids, ∀ t, t ∈ tagsOf E.whole S'.D id ↔ t ∈ tagsOf E.whole S.D id := fun id hid t => by
    rw [← mem_long (n := n), (s3 id hid).mem_iff, mem_long]
  have mT : ∀ id ∈ ids, ∀ t, t ∈ tagsOf E.whole T'.D id ↔ t ∈ tagsOf E.whole T.D id := fun id hid t => by
    rw [← mem_long (n := n'), (t3 id hid).mem_iff, mem_long]
  obtain ⟨M1, e1, g2, g3, g4, g5⟩ := id st
  obtain ⟨N1, e2, k2, k3, k4, k5⟩ := id st'
  have cf := cause_fields E.p h.div h'.div r Q.fields Q.sources e1 e2
  have Q' := Q.symm r
  have r' : Reaches n' n hi := by rcases r with rfl | ⟨a, b⟩; exacts [Or.inl rfl, Or.inr ⟨b, a⟩]
  -- particles
  have fwd : ∀ id ∈ ids, ∀ t, t ∈ tagsOf E.whole S.D id → Between (lo + 4) (hi - 4) (S'.heap t) → t ∈ tagsOf E.whole T.D id ∧ S'.heap t = T'.heap t := by
    intro id hid t ht hb
    obtain ⟨v, _, _, _, _, _, _, _, c1, c2⟩ := moved h hk hc A e1 st ht
    have hb1 := hb.1
    have hb2 := hb.2
    obtain ⟨q1, _, q3⟩ := moved_alike h h' hk hc r A A' Q st st' hid ht ⟨by omega, by omega⟩
    exact ⟨q1, q3⟩
  have bwd : ∀ id ∈ ids, ∀ t, t ∈ tagsOf E.whole T.D id → Between (lo + 4) (hi - 4) (T'.heap t) → t ∈ tagsOf E.whole S.D id ∧ T'.heap t = S'.heap t := by
    intro id hid t ht hb
    obtain ⟨v, _, _, _, _, _, _, _, c1, c2⟩ := moved h' hk hc A' e2 st' ht
    have hb1 := hb.1
    have hb2 := hb.2
    obtain ⟨q1, _, q3⟩ := moved_alike h' h hk hc r' A' A Q' st' st hid ht ⟨by omega, by omega⟩
    exact ⟨q1, q3⟩
  -- currents
  obtain ⟨X', y1, y2, y3⟩ := C96_zigzag_exact_partial (E.long n).p h.div E.e h.good (depositsOf (E.long n) S'.heap S'.D) s4 M1 (M1 0 0)
  obtain ⟨Y', z1, z2, z3⟩ := C96_zigzag_exact_partial (E.long n').p h'.div E.e h'.good (depositsOf (E.long n') T'.heap T'.D) t4 N1 (N1 0 0)
  have g5 : solveCurrent E.dist (E.long n).p 1 1 E.e (depositsOf (E.long n) S'.heap S'.D) M1 = .ok S'.M := g5
  have k5 : solveCurrent E.dist (E.long n').p 1 1 E.e (depositsOf (E.long n') T'.heap T'.D) N1 = .ok T'.M := k5
  rw [hz] at g5 k5
  obtain rfl := Res.ok.inj (g5.symm.trans y1)
  obtain rfl := Res.ok.inj (k5.symm.trans z1)
  refine ⟨?_, ?_, ?_, ?_⟩
  · intro c x y hs hx hy h1 h2
    have nj : c ≠ .jr ∧ c ≠ .jp ∧ c ≠ .jz := by
      refine ⟨?_, ?_, ?_⟩ <;> (rintro rfl; exact (nomatch hs))
    rw [y2 0 0 c x y Nat.one_pos Nat.one_pos nj.1 nj.2.1 nj.2.2, z2 0 0 c x y Nat.one_pos Nat.one_pos nj.1 nj.2.1 nj.2.2]
    exact cf.1 c x y hs hx hy (by omega) (by omega)
  · intro c x y hs hx hy h1 h2
    by_cases nj : c = .jr ∨ c = .jp ∨ c = .jz
    · have ns : y < n' := by rcases r with rfl | ⟨r1, r2⟩ <;> omega
      rw [current_one h nd s2.species s4 g5 nj hx hy, current_one h' nd t2.species t4 k5 nj hx ⟨hy.1, ns⟩]
      refine congrArg List.sum (List.map_congr_left fun id hid => ?_)
      have nS : (tagsOf (E.long n) S.D id).Nodup := (List.nodup_flatMap.mp A.once).1 id hid
      have nT : (tagsOf (E.long n') T.D id).Nodup := (List.nodup_flatMap.mp A'.once).1 id hid
      rw [((s3 id hid).map _).sum_eq, ((t3 id hid).map _).sum_eq]
      have zero : ∀ a b : Part ℝ, b.oldZ = a.posZ → (b.cellZ : Int) = ⌊b.posZ / E.p.dz⌋ → (a.cellZ : Int) = ⌊a.posZ / E.p.dz⌋ → (a.cellZ : Int) - 1 ≤ b.cellZ →
          (b.cellZ : Int) ≤ a.cellZ + 1 → zz (ctxOf E.p 0 E.e) (depositOf (E.charge id) b) c x y ≠ 0 → Between (lo + 2) (hi - 2) a := by
        intro a b w1 w2 w3 w4 w5 w6
        by_contra k
        refine w6 (zz_support _ _ _ _ _ ?_)
        show ¬ (_ ∧ (min ⌊b.posZ / E.p.dz⌋ ⌊b.oldZ / E.p.dz⌋ - ((0 : Nat) : Int) ≤ y ∧ y ≤ max ⌊b.posZ / E.p.dz⌋ ⌊b.oldZ / E.p.dz⌋ - ((0 : Nat) : Int) + 1))
        rw [w1, ← w2, ← w3]
        unfold Between at k
        omega
      refine sum_near nS nT (P := fun t => Between (lo + 2) (hi - 2) (S.heap t)) (P' := fun t => Between (lo + 2) (hi - 2) (T.heap t)) ?_ ?_ ?_ ?_
      · intro t ht h0
        obtain ⟨v, _, _, _, _, w1, w2, w3, w4, w5⟩ := moved h hk hc A e1 st (mem_long.mp ht)
        exact zero _ _ w1 w2 w3 w4 w5 h0
      · intro t ht h0
        obtain ⟨v, _, _, _, _, w1, w2, w3, w4, w5⟩ := moved h' hk hc A' e2 st' (mem_long.mp ht)
        exact zero _ _ w1 w2 w3 w4 w5 h0
      · intro t ht hb
        obtain ⟨q1, q2, q3⟩ := moved_alike h h' hk hc r A A' Q st st' hid (mem_long.mp ht) hb
        exact ⟨mem_long.mpr q1, q2, by rw [q3]⟩
      · intro t ht hb
        obtain ⟨q1, q2, _⟩ := moved_alike h' h hk hc r' A' A Q' st' st hid (mem_long.mp ht) hb
        exact ⟨mem_long.mpr q1, q2⟩
    · have nj : c ≠ .jr ∧ c ≠ .jp ∧ c ≠ .jz := ⟨fun k => nj (Or.inl k), fun k => nj (Or.inr (Or.inl k)), fun k => nj (Or.inr (Or.inr k))⟩
      rw [y2 0 0 c x y Nat.one_pos Nat.one_pos nj.1 nj.2.1 nj.2.2, z2 0 0 c x y Nat.one_pos Nat.one_pos nj.1 nj.2.1 nj.2.2]
      exact cf.2 c x y hs hx hy (by omega) (by omega)
  · intro id hid t
    rw [mS id hid, mT id hid]
    constructor
    · rintro ⟨a, b⟩
      obtain ⟨q1, q2⟩ := fwd id hid t a b
      exact ⟨q1, q2 ▸ b⟩
    · rintro ⟨a, b⟩
      obtain ⟨q1, q2⟩ := bwd id hid t a b
      exact ⟨q1, q2 ▸ b⟩
  · intro id hid t ht hb
    exact (fwd id hid t ((mS id hid t).mp ht) hb).2
end

/-! ### Runs -/

theorem Reaches.mono {n n' : Nat} {hi hi' : Int} (r : Reaches n n' hi) (h : hi' ≤ hi) : Reaches n n' hi' := by
  rcases r with rfl | ⟨a, b⟩
  · exact Or.inl rfl
  · exact Or.inr ⟨by omega, by omega⟩

section
variable {E : Env} {n n' : Nat} (h : Chamber (E.long n)) (h' : Chamber (E.long n')) (hk : Pusher.Relativistic E.kind) (hz : E.dist = ZigZag.currentDistribution)
  (hc : HalfCell E) {ids : List Nat} (nd : ids.Nodup) {lo hi : Int} (r : Reaches n n' hi)
include h h' hk hz hc nd r

/-- C123, undivided chambers and the ZigZag scheme: influences travel along the axis by at most four columns per step.  Two runs, in
chambers of the same or of different length, that start alike in the columns `lo … hi` are after `k` steps still alike in the columns
`lo + 4 k … hi − 4 k`: the same fields, currents and particles.  Missing: divided chambers (see C98 for what a division changes) and the
Villasenor–Buneman scheme, whose currents depend on the order of the particles (C19). -/
theorem C123_run_partial {S T : State} (A : Alive (E.long n) ids S) (A' : Alive (E.long n') ids T) (Q : Alike E ids n lo hi S T) (k : Nat) :
    ∃ S' T', (∀ X, Run (E.long n) S k X ↔ X = S') ∧ (∀ X, Run (E.long n') T k X ↔ X = T') ∧ Alike E ids n (lo + 4 * k) (hi - 4 * k) S' T' := by
  have sc : Scheme E.dist := by first | exact Or.inl hz | exact Or.inr hz
  induction k with
  | zero =>
    obtain ⟨S', a1, _⟩ := C97_single h hk sc rfl rfl hc nd A 0
    obtain ⟨T', b1, _⟩ := C97_single h' hk sc rfl rfl hc nd A' 0
    obtain rfl := (a1 _).mp .start
    obtain rfl := (b1 _).mp .start
    refine ⟨S, T, a1, b1, ?_⟩
    rw [Nat.cast_zero, mul_zero, add_zero, sub_zero]
    exact Q
  | succ k ih =>
    obtain ⟨S1, T1, a1, b1, q⟩ := ih
    obtain ⟨S1', a2, a3, _⟩ := C97_single h hk sc rfl rfl hc nd A k
    obtain rfl := (a2 _).mp ((a1 _).mpr rfl)
    obtain ⟨T1', b2, b3, _⟩ := C97_single h' hk sc rfl rfl hc nd A' k
    obtain rfl := (b2 _).mp ((b1 _).mpr rfl)
    obtain ⟨S', c1, _⟩ := C97_single h hk sc rfl rfl hc nd A (k + 1)
    obtain ⟨T', d1, _⟩ := C97_single h' hk sc rfl rfl hc nd A' (k + 1)
    refine ⟨S', T', c1, d1, ?_⟩
    have x := (c1 S').mpr rfl
    have y := (d1 T').mpr rfl
    cases x with
    | step x1 x2 =>
      cases y with
      | step y1 y2 =>
        obtain rfl := (a1 _).mp x1
        obtain rfl := (b1 _).mp y1
        have := step_alike h h' hk hz hc nd (r.mono (by omega)) a3 b3 q x2 y2
        have e1 : lo + 4 * ((k + 1 : Nat) : Int) = lo + 4 * k + 4 := by push_cast; ring
        have e2 : hi - 4 * ((k + 1 : Nat) : Int) = hi - 4 * k - 4 := by push_cast; ring
        rw [e1, e2]
        exact this

/-- C123 with the left wall: runs that start alike in all columns up to `hi` stay alike in all columns up to `hi − 4 k`.  So the results
near the left wall do not depend on what is farther to the right, nor on the length of the chamber, until it can arrive. -/
theorem C123_left_partial {S T : State} (A : Alive (E.long n) ids S) (A' : Alive (E.long n') ids T) (Q : Alike E ids n (-2) hi S T) (k : Nat) :
    ∃ S' T', (∀ X, Run (E.long n) S k X ↔ X = S') ∧ (∀ X, Run (E.long n') T k X ↔ X = T') ∧ Alike E ids n (-2) (hi - 4 * k) S' T' := by
  have Q0 : Alike E ids n (-2 - 4 * k) hi S T := by
    refine ⟨fun c x y a b d _ e => Q.fields c x y a b d d.1 e, fun c x y a b d _ e => Q.sources c x y a b d (by omega) e, ?_, ?_⟩
    · intro id hid t
      have bt : ∀ a : Part ℝ, Between (-2 - 4 * k) hi a ↔ Between (-2) hi a := by intro a; unfold Between; omega
      rw [bt, bt]
      exact Q.lists id hid t
    · intro id hid t ht hb
      exact Q.heap id hid t ht ⟨by omega, hb.2⟩
  obtain ⟨S', T', a, b, q⟩ := C123_run_partial h h' hk hz hc nd r A A' Q0 k
  refine ⟨S', T', a, b, ?_⟩
  rw [show (-2 - 4 * (k : Int) + 4 * k) = -2 by ring] at q
  exact q
end

/-! ### The hypotheses can be met -/

theorem ex_long {n : Nat} (hn : 2 ≤ n) (hn' : n < 2 ^ 31) : Chamber ((exEnv 1 1 1).long n) where
  r0 := rfl
  walls := rfl
  div := ⟨le_refl 1, le_refl 1, by show 2 * 1 ≤ 4; decide, by show 2 * 1 ≤ n; omega, by show 4 < 2 ^ 31; decide, hn', one_dvd _, one_dvd _, Or.inl rfl⟩
  good := by refine ⟨⟨?_, ?_, ?_, ?_⟩, ?_, ?_, ?_⟩ <;> norm_num [ctxOf, exEnv, Env.long] <;> omega
  c := by norm_num [exEnv, Env.long]
  cr := by norm_num [exEnv, Env.long]
  cz := by norm_num [exEnv, Env.long]
  mass := fun _ => by norm_num [exEnv, Env.long]

/-- One moving charged particle; `f` is the electric field along the axis in one cell of column 17. -/
noncomputable def exFar (f : ℝ) : State where
  M := fun _ _ c x y => if c = .ez ∧ x = 1 ∧ y = 17 then f else exMedium c x y
  heap := fun _ => exPart (3/2) (5/2) (1/2) (1/3) 1 2
  D := fun i j => [⟨7, if i = 0 ∧ j = 0 then [⟨0, 0, 0⟩] else []⟩]

theorem exFar_alive {n : Nat} (hn : 20 ≤ n) (hn' : n < 2 ^ 31) (f : ℝ) : Alive ((exEnv 1 1 1).long n) [7] (exFar f) where
  species := fun _ _ => rfl
  once := by
    have : [7].flatMap (tagsOf ((exEnv 1 1 1).long n) (exFar f).D) = [0] := by rfl
    rw [this]
    exact List.nodup_singleton 0
  place := by
    intro i j hi hj sp hsp o ho
    have i0 : i = 0 := Nat.lt_one_iff.mp hi
    have j0 : j = 0 := Nat.lt_one_iff.mp hj
    subst i0 j0
    have hN : (20 : ℝ) ≤ n := by exact_mod_cast hn
    obtain rfl := List.mem_singleton.mp hsp
    refine ⟨rfl, ?_, ?_, ?_, ?_, ?_, ?_, ?_, ?_⟩
    · rw [long_geom (ex_long (by omega) hn')]
      constructor <;> norm_num [exEnv, exPart, exFar] <;> linarith
    all_goals norm_num [exEnv, exPart, exFar, vel, Vec3.length2, Int.floor_eq_iff, Env.long]
    all_goals linarith
  fields := by
    refine ⟨fun c x y => if c = .ez ∧ x = 1 ∧ y = 17 then f else exMedium c x y, fun c hc i j x y ho => ?_⟩
    obtain ⟨hi, hj, _⟩ := ho
    have i0 : i = 0 := Nat.lt_one_iff.mp hi
    have j0 : j = 0 := Nat.lt_one_iff.mp hj
    subst i0 j0
    refine ⟨fun _ => ?_, fun k => ?_⟩
    · show _ = (fun c x y => if c = .ez ∧ x = 1 ∧ y = 17 then f else exMedium c x y) c ((low 4 1 0 : Nat) + x) ((low n 1 0 : Nat) + y)
      rw [low_one, low_one, Nat.cast_zero, zero_add, zero_add]
      rfl
    · have k : Seam ((exEnv 1 1 1).long n).p 1 1 0 0 x y := k
      unfold Seam at k
      omega

/-- Two chambers of different length, the same moving charge, and a field in one of them that the other one has not: alike in the columns
up to 16, so alike in the columns up to 8 after two steps. -/
example : ∃ S' T', (∀ X, Run ((exEnv 1 1 1).long 20) (exFar 0) 2 X ↔ X = S') ∧ (∀ X, Run ((exEnv 1 1 1).long 30) (exFar 1) 2 X ↔ X = T') ∧
    Alike (exEnv 1 1 1) [7] 20 (-2) 8 S' T' := by
  have := C123_left_partial (E := exEnv 1 1 1) (n := 20) (n' := 30) (hi := 16) (ex_long (by decide) (by decide)) (ex_long (by decide) (by decide)) (Or.inl rfl) rfl
    (by unfold HalfCell exEnv; norm_num) (ids := [7]) (by simp) (Or.inr ⟨by decide, by decide⟩) (exFar_alive (by decide) (by decide) 0)
    (exFar_alive (by decide) (by decide) 1) ⟨?_, ?_, fun _ _ _ => Iff.rfl, fun _ _ _ _ _ => rfl⟩ 2
  · exact this
  · intro c x y _ _ _ _ h
    show (if _ then _ else _) = (if _ then _ else _)
    rw [if_neg (by omega), if_neg (by omega)]
  · intro c x y _ _ _ _ h
    show (if _ then _ else _) = (if _ then _ else _)
    rw [if_neg (by omega), if_neg (by omega)]

end Pic
end Pico
