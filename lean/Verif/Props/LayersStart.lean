import Verif.Props.PicStart
import Verif.Props.Fields

/-! Property C22 for whole starts: the conductivities of a divided chamber are those of the configured layers. -/

set_option linter.unusedSimpArgs false
set_option linter.unusedVariables false

namespace Pico
namespace Pic

open SMB Yee

/-- Quadratic growth from `s0` at the inner edge of a layer of `n` cells, where `t` counts the cells from the inner edge. -/
noncomputable def growth (l : Layers) (n t : Nat) : ℝ := l.s0 + (l.s1 - l.s0) * ((t : ℝ) / n) ^ 2

/-- The conductivity that the configuration asks for in cell `(x, y)` of a chamber of `nr × nz` cells: the sum of what the layers at the
outer wall, at the left wall and at the right wall give. -/
noncomputable def conductivity (l : Layers) (nr nz x y : Nat) : ℝ :=
  (if nr < x + l.outer then growth l l.outer (x + l.outer + 1 - nr) else 0) + (if y < l.left then growth l l.left (l.left - y) else 0) +
    (if nz < y + l.right then growth l l.right (y + l.right + 1 - nz) else 0)

theorem profile_growth (l : Layers) {n t : Nat} (hn : n ≠ 0) {u : ℝ} (hu : u = (t : ℝ)) : Yee.profile l.s0 l.s1 (n : ℝ) u = growth l n t := by
  have : (n : ℝ) ≠ 0 := Nat.cast_ne_zero.mpr hn
  subst hu
  unfold Yee.profile growth
  field_simp

/-- **C22**, at the start of a run: in every cell of every domain the conductivity is that of the configured layers at the place of the
cell in the chamber, however the chamber is divided. -/
theorem C22_start {X : Setup} (h : X.Sane) {S : State} (hs : Starts X S) {l : Layers} (hl : X.layers = some l) (h0 : 0 ≤ l.s0) (h1 : l.s0 ≤ l.s1)
    {i j a b : Nat} (hi : i < X.env.domR) (hj : j < X.env.domZ) (ha : a < hgt X.env.p.nr X.env.domR i) (hb : b < hgt X.env.p.nz X.env.domZ j) :
    S.M i j .sig a b = conductivity l X.env.p.nr X.env.p.nz (low X.env.p.nr X.env.domR i + a) (low X.env.p.nz X.env.domZ j + b) := by
  have e := hs.solver i j hi hj
  have hc := h.chamber
  have d := hc.div
  unfold newSolver at e
  rw [hl] at e
  dsimp only at e
  set p := domPar X.env.p X.env.domR X.env.domZ i j with hp
  set q := layersOf X.env l i j with hq
  have pe : p = winPar X.env.p X.env.domR X.env.domZ i j := by rw [hp, domPar_eq d]
  have n1 : p.nr = hgt X.env.p.nr X.env.domR i := by rw [pe, winPar_nr]
  have n2 : p.nz = hgt X.env.p.nz X.env.domZ j := by rw [pe, winPar_nz]
  have dr : p.dr = X.env.p.dr := by rw [pe]; rfl
  have dz : p.dz = X.env.p.dz := by rw [pe]; rfl
  have m1 : low X.env.p.nr X.env.domR (i + 1) ≤ X.env.p.nr := by
    have := low_mono (n := X.env.p.nr) (d := X.env.domR) (show i + 1 ≤ X.env.domR by omega)
    rwa [low_last d.r1] at this
  have m2 : low X.env.p.nz X.env.domZ (j + 1) ≤ X.env.p.nz := by
    have := low_mono (n := X.env.p.nz) (d := X.env.domZ) (show j + 1 ≤ X.env.domZ by omega)
    rwa [low_last d.z1] at this
  have q1 : q.r0 = low X.env.p.nr X.env.domR i := by
    show low X.env.p.nr X.env.domR i + X.env.p.r0 = _
    rw [hc.r0, Nat.add_zero]
  have q2 : q.z0 = low X.env.p.nz X.env.domZ j := rfl
  have k1 : q.gnr = X.env.p.nr := rfl
  have k2 : q.gnz = X.env.p.nz := rfl
  have u1 : q.left = if low X.env.p.nz X.env.domZ j < l.left then l.left else 0 := rfl
  have u2 : q.outer = if X.env.p.nr - low X.env.p.nr X.env.domR (i + 1) < l.outer then l.outer else 0 := by
    show (if X.env.p.nr - (low X.env.p.nr X.env.domR (i + 1) + X.env.p.r0) < l.outer then l.outer else 0) = _
    rw [hc.r0, Nat.add_zero]
  have u3 : q.right = if X.env.p.nz - low X.env.p.nz X.env.domZ (j + 1) < l.right then l.right else 0 := rfl
  have b1 := d.r3
  have b2 := d.z3
  unfold hgt at n1 n2 ha hb
  let P : Par ℝ := ⟨p.dr, p.dz, 1, 1, q.r0, p.nr, p.nz, ⟨decide (q.r0 = 0), false, false, false⟩⟩
  have hP : P.Good := ⟨by show 0 < p.dr; rw [dr]; exact hc.good.geo.dr, by show 0 < p.dz; rw [dz]; exact hc.good.geo.dz, one_pos, one_pos,
    by show 1 ≤ p.nr; omega, by show 1 ≤ p.nz; omega, by show p.nr < _; omega, by show p.nz < _; omega, by simp [P], by simp [P], by simp [P]⟩
  have hQ : q.Fits P := ⟨h0, h1, rfl, by show _ = (q.gnr : ℝ) * p.dr; rw [dr]; rfl, by show _ = (q.gnz : ℝ) * p.dz; rw [dz]; rfl,
    by show q.r0 + p.nr ≤ q.gnr; omega, by show q.z0 + p.nz ≤ q.gnz; omega, by omega, by omega⟩
  unfold setPml at e
  obtain ⟨w1, a1, e⟩ := Res.bind_ok e
  obtain ⟨w2, a2, a3⟩ := Res.bind_ok e
  have step : ∀ {f : Nat × Nat → ℝ} {u u' : Mem ℝ}, pmlLoop p f u = .ok u' → u' .sig a b = u .sig a b + f (a, b) := by
    intro f u u' ee
    obtain ⟨w, v1, _, v2⟩ := pmlLoop_eq p f u
    obtain rfl := Res.ok.inj (v1.symm.trans ee)
    exact v2 a b (by omega) (by omega)
  rw [step a3, step a2, step a1]
  dsimp only
  have s1 : sigOuter p q a = if X.env.p.nr < low X.env.p.nr X.env.domR i + a + l.outer then
      growth l l.outer (low X.env.p.nr X.env.domR i + a + l.outer + 1 - X.env.p.nr) else 0 := by
    have := sigOuter_eq hP hQ (i := a) (by show a < p.nr; omega)
    rw [show sigOuter p q a = sigOuter P q a from rfl, this, q1, k1, u2]
    by_cases c : X.env.p.nr < low X.env.p.nr X.env.domR i + a + l.outer
    · rw [if_pos c, if_pos (show X.env.p.nr - low X.env.p.nr X.env.domR (i + 1) < l.outer by omega),
        if_pos (show X.env.p.nr - low X.env.p.nr X.env.domR i - a < l.outer by omega)]
      refine profile_growth l (by omega) ?_
      rw [show X.env.p.nr - low X.env.p.nr X.env.domR i - a = l.outer + 1 - (low X.env.p.nr X.env.domR i + a + l.outer + 1 - X.env.p.nr) by omega,
        Nat.cast_sub (by omega)]
      push_cast
      ring
    · rw [if_neg c, if_neg (by split <;> omega)]
  have s2 : sigLeft p q b = if low X.env.p.nz X.env.domZ j + b < l.left then growth l l.left (l.left - (low X.env.p.nz X.env.domZ j + b)) else 0 := by
    rw [show sigLeft p q b = sigLeft P q b from rfl, sigLeft_eq hP, q2, u1]
    by_cases c : low X.env.p.nz X.env.domZ j + b < l.left
    · rw [if_pos c, if_pos (show low X.env.p.nz X.env.domZ j < l.left by omega), if_pos c]
      exact profile_growth l (by omega) rfl
    · rw [if_neg c, if_neg (by split <;> omega)]
  have s3 : sigRight p q b = if X.env.p.nz < low X.env.p.nz X.env.domZ j + b + l.right then
      growth l l.right (low X.env.p.nz X.env.domZ j + b + l.right + 1 - X.env.p.nz) else 0 := by
    have := sigRight_eq hP hQ (k := b) (by show b < p.nz; omega)
    rw [show sigRight p q b = sigRight P q b from rfl, this, q2, k2, u3]
    by_cases c : X.env.p.nz < low X.env.p.nz X.env.domZ j + b + l.right
    · rw [if_pos c, if_pos (show X.env.p.nz - low X.env.p.nz X.env.domZ (j + 1) < l.right by omega),
        if_pos (show X.env.p.nz - low X.env.p.nz X.env.domZ j - b < l.right by omega)]
      refine profile_growth l (by omega) ?_
      rw [show X.env.p.nz - low X.env.p.nz X.env.domZ j - b = l.right + 1 - (low X.env.p.nz X.env.domZ j + b + l.right + 1 - X.env.p.nz) by omega,
        Nat.cast_sub (by omega)]
      push_cast
      ring
    · rw [if_neg c, if_neg (by split <;> omega)]
  rw [s1, s2, s3, if_neg (by simp)]
  unfold conductivity
  ring

/-- **C22**, at the start: cells away from the layers do not conduct, and without layers none does. -/
theorem C22_start_free {X : Setup} (h : X.Sane) {S : State} (hs : Starts X S) {i j a b : Nat} (hi : i < X.env.domR) (hj : j < X.env.domZ)
    (ha : a < hgt X.env.p.nr X.env.domR i) (hb : b < hgt X.env.p.nz X.env.domZ j)
    (f : X.layers = none ∨ ∃ l, X.layers = some l ∧ 0 ≤ l.s0 ∧ l.s0 ≤ l.s1 ∧ low X.env.p.nr X.env.domR i + a + l.outer ≤ X.env.p.nr ∧
      l.left ≤ low X.env.p.nz X.env.domZ j + b ∧ low X.env.p.nz X.env.domZ j + b + l.right ≤ X.env.p.nz) :
    S.M i j .sig a b = 0 := by
  rcases f with f | ⟨l, hl, h0, h1, c1, c2, c3⟩
  · have e := hs.solver i j hi hj
    unfold newSolver at e
    rw [f] at e
    dsimp only at e
    rw [← Res.ok.inj e]
    exact if_neg (by simp)
  · rw [C22_start h hs hl h0 h1 hi hj ha hb]
    unfold conductivity
    rw [if_neg (by omega), if_neg (by omega), if_neg (by omega)]
    ring

/-! ### Non-vacuity -/

/-- Four domains of 2 × 2 cells, layers of one, two and one cells (left, outer, right): the corner cell at the outer left end conducts. -/
example : ∃ S, Starts { exSetup (exEnv 2 2 1) 100 .flat [] with layers := some ⟨1, 2, 1, 0, 1⟩ } S ∧ S.M 1 0 .sig ((1 : Nat) : Int) ((0 : Nat) : Int) = 2 ∧
    S.M 0 1 .sig ((1 : Nat) : Int) ((1 : Nat) : Int) = 0 := by
  have s := exSetup_sane (E := exEnv 2 2 1) (exEnv_chamber ex_div2 1) rfl 100 .flat (beams := []) List.nodup_nil (by simp)
  have c := exSetup_cold (E := exEnv 2 2 1) rfl 100 .flat []
  have dr := exSetup_drawable (E := exEnv 2 2 1) (a := 100) rfl (by norm_num) (by norm_num [exEnv]) .flat []
  have s' : Setup.Sane { exSetup (exEnv 2 2 1) 100 .flat [] with layers := some ⟨1, 2, 1, 0, 1⟩ } := ⟨s.1, s.2, s.3, s.4, s.5, s.6, s.7, s.8, s.9, s.10, s.11, s.12, s.13, s.14⟩
  obtain ⟨S, h⟩ := C110_exists s' (fun x hx => .inr (c x hx)) dr
  refine ⟨S, h, ?_, ?_⟩
  · rw [C22_start s' h rfl (by norm_num) (by norm_num) (i := 1) (j := 0) (a := 1) (b := 0) (by decide) (by decide) (by decide) (by decide)]
    norm_num [conductivity, growth, exSetup, exEnv, low]
  · rw [C22_start s' h rfl (by norm_num) (by norm_num) (i := 0) (j := 1) (a := 1) (b := 1) (by decide) (by decide) (by decide) (by decide)]
    norm_num [conductivity, growth, exSetup, exEnv, low]

end Pic
end Pico
