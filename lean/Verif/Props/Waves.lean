import Verif.Spec.Waves
import Verif.Props.FieldStep

/-!
# C107 — fields superpose;  C108 — fields spread at most one cell per step
-/

set_option linter.unusedSimpArgs false
set_option linter.unusedVariables false

namespace Pico
namespace Yee

open SMB

variable {K : Type _} [Field K]

theorem step_forms (p : Par K) (hr : 1 ≤ p.nr) (hr' : p.nr < 2 ^ 32) (hz : 1 ≤ p.nz) (hz' : p.nz < 2 ^ 32) (m : Mem K) :
    ∃ m1 m2, calcE p m = .ok m1 ∧ calcH p m1 = .ok m2 := by
  obtain ⟨m1, e1, _⟩ := calcE_eq p hr hr' hz hz' m
  obtain ⟨m2, e2, _⟩ := calcH_eq p hr m1
  exact ⟨m1, m2, e1, e2⟩

theorem near_inside {p : Par K} {i k : Int} (h : p.logical i k) : p.inside i k ∧ p.inside (i + 1) k ∧ p.inside i (k + 1) ∧ p.inside (i - 1) k ∧
    p.inside i (k - 1) := by
  unfold Par.logical at h
  unfold Par.inside
  omega

/-- `m` is the superposition of `m1` and `m2` in all fields and currents; media are the same. -/
structure Mix (p : Par K) (a b : K) (m1 m2 m : Mem K) : Prop where
  medium : ∀ c x y, c.isMedium = true → p.logical x y → m1 c x y = m c x y ∧ m2 c x y = m c x y
  current : ∀ c x y, c.isCurrent = true → p.logical x y → m c x y = a * m1 c x y + b * m2 c x y
  field : ∀ c x y, c.isSource = false → p.inside x y → m c x y = a * m1 c x y + b * m2 c x y

theorem isE_cases {c : Comp} (h : c.isSource = false) : isE c ∨ isH c := by
  cases c <;> first | exact absurd h (by decide) | (unfold isE isH; decide)

section
variable {p : Par K} (hr : 1 ≤ p.nr) (hr' : p.nr < 2 ^ 32) (hz : 1 ≤ p.nz) (hz' : p.nz < 2 ^ 32) {a b : K} {m1 m2 m : Mem K}
include hr hr' hz hz'

theorem mix_E (M : Mix p a b m1 m2 m) {n1 n2 n : Mem K} (e1 : calcE p m1 = .ok n1) (e2 : calcE p m2 = .ok n2) (e : calcE p m = .ok n) :
    Mix p a b n1 n2 n := by
  obtain ⟨n1', f1, A1, B1, C1⟩ := calcE_eq p hr hr' hz hz' m1
  obtain ⟨n2', f2, A2, B2, C2⟩ := calcE_eq p hr hr' hz hz' m2
  obtain ⟨n', f, A, B, C⟩ := calcE_eq p hr hr' hz hz' m
  obtain rfl := Res.ok.inj (f1.symm.trans e1)
  obtain rfl := Res.ok.inj (f2.symm.trans e2)
  obtain rfl := Res.ok.inj (f.symm.trans e)
  have ne : ∀ c : Comp, c.isMedium = true ∨ c.isCurrent = true → ¬ isE c := by
    intro c; cases c <;> (unfold isE; decide)
  refine ⟨?_, ?_, ?_⟩
  · intro c x y hc hl
    rw [A1 _ _ _ (ne c (.inl hc)), A2 _ _ _ (ne c (.inl hc)), A _ _ _ (ne c (.inl hc))]
    exact M.medium c x y hc hl
  · intro c x y hc hl
    rw [A1 _ _ _ (ne c (.inr hc)), A2 _ _ _ (ne c (.inr hc)), A _ _ _ (ne c (.inr hc))]
    exact M.current c x y hc hl
  · intro c x y hc hin
    by_cases he : isE c
    swap
    · rw [A1 _ _ _ he, A2 _ _ _ he, A _ _ _ he]
      exact M.field c x y hc hin
    by_cases hl : p.logical x y
    swap
    · rw [B1 _ _ _ he hin hl, B2 _ _ _ he hin hl, B _ _ _ he hin hl]
      ring
    obtain ⟨_, _, _, i3, i4⟩ := near_inside hl
    have d1 := (M.medium .eps x y rfl hl)
    have d2 := (M.medium .sig x y rfl hl)
    have new : ∀ o o1 o2 X X1 X2 : K, o = a * o1 + b * o2 → X = a * X1 + b * X2 →
        newE p m x y o X = a * newE p m1 x y o1 X1 + b * newE p m2 x y o2 X2 := by
      intro o o1 o2 X X1 X2 ho hX
      unfold newE
      rw [d1.1, d1.2, d2.1, d2.2, ho, hX]
      ring
    have fld := M.field
    have cur := M.current
    have oR := fld .er x y rfl hin
    have oP := fld .ep x y rfl hin
    have oZ := fld .ez x y rfl hin
    have xr : xR p m x y = a * xR p m1 x y + b * xR p m2 x y := by
      unfold xR
      rw [cur .jr x y rfl hl, fld .hp x y rfl hin, fld .hp x (y - 1) rfl i4]; ring
    have xp : xP p m x y = a * xP p m1 x y + b * xP p m2 x y := by
      unfold xP
      rw [cur .jp x y rfl hl, fld .hr x y rfl hin, fld .hr x (y - 1) rfl i4, fld .hz x y rfl hin, fld .hz (x - 1) y rfl i3]; ring
    have xz : xZ p m x y = a * xZ p m1 x y + b * xZ p m2 x y := by
      unfold xZ
      rw [cur .jz x y rfl hl, fld .hp x y rfl hin, fld .hp (x - 1) y rfl i3]; ring
    have xa : xA p m x y = a * xA p m1 x y + b * xA p m2 x y := by
      unfold xA
      rw [cur .jz x y rfl hl, fld .hp x y rfl hin]; ring
    obtain ⟨r1, p1, z1⟩ := C1 x y hl
    obtain ⟨r2, p2, z2⟩ := C2 x y hl
    obtain ⟨r, p', z⟩ := C x y hl
    rcases he with rfl | rfl | rfl
    · rw [r1, r2, r]
      split_ifs
      · exact new _ _ _ _ _ _ oR xr
      · exact oR
    · rw [p1, p2, p']
      split_ifs
      · exact new _ _ _ _ _ _ oP xp
      · exact oP
    · rw [z1, z2, z]
      split_ifs
      · exact new _ _ _ _ _ _ oZ xz
      · exact new _ _ _ _ _ _ oZ xa
      · exact oZ

omit hr' hz hz' in
theorem mix_H (M : Mix p a b m1 m2 m) {n1 n2 n : Mem K} (e1 : calcH p m1 = .ok n1) (e2 : calcH p m2 = .ok n2) (e : calcH p m = .ok n) :
    Mix p a b n1 n2 n := by
  obtain ⟨n1', f1, A1, C1, B1⟩ := calcH_eq p hr m1
  obtain ⟨n2', f2, A2, C2, B2⟩ := calcH_eq p hr m2
  obtain ⟨n', f, A, C, B⟩ := calcH_eq p hr m
  obtain rfl := Res.ok.inj (f1.symm.trans e1)
  obtain rfl := Res.ok.inj (f2.symm.trans e2)
  obtain rfl := Res.ok.inj (f.symm.trans e)
  have ne : ∀ c : Comp, c.isMedium = true ∨ c.isCurrent = true → ¬ isH c := by
    intro c; cases c <;> (unfold isH; decide)
  refine ⟨?_, ?_, ?_⟩
  · intro c x y hc hl
    rw [A1 _ _ _ (ne c (.inl hc)), A2 _ _ _ (ne c (.inl hc)), A _ _ _ (ne c (.inl hc))]
    exact M.medium c x y hc hl
  · intro c x y hc hl
    rw [A1 _ _ _ (ne c (.inr hc)), A2 _ _ _ (ne c (.inr hc)), A _ _ _ (ne c (.inr hc))]
    exact M.current c x y hc hl
  · intro c x y hc hin
    by_cases he : isH c
    swap
    · rw [A1 _ _ _ he, A2 _ _ _ he, A _ _ _ he]
      exact M.field c x y hc hin
    by_cases hl : p.logical x y
    swap
    · rw [B1 _ _ _ he hin hl, B2 _ _ _ he hin hl, B _ _ _ he hin hl]
      ring
    obtain ⟨_, i1, i2, _, _⟩ := near_inside hl
    have fld := M.field
    have oR := fld .hr x y rfl hin
    have oP := fld .hp x y rfl hin
    have oZ := fld .hz x y rfl hin
    have ar : aR p m x y = a * aR p m1 x y + b * aR p m2 x y := by
      unfold aR
      rw [fld .ep x y rfl hin, fld .ep x (y + 1) rfl i2]; ring
    have ap : aP p m x y = a * aP p m1 x y + b * aP p m2 x y := by
      unfold aP
      rw [fld .ez x y rfl hin, fld .ez (x + 1) y rfl i1, fld .er x y rfl hin, fld .er x (y + 1) rfl i2]; ring
    have az : aZ p m x y = a * aZ p m1 x y + b * aZ p m2 x y := by
      unfold aZ
      rw [fld .ep x y rfl hin, fld .ep (x + 1) y rfl i1]; ring
    obtain ⟨r1, p1, g1, z1, k1⟩ := C1 x y hl
    obtain ⟨r2, p2, g2, z2, k2⟩ := C2 x y hl
    obtain ⟨r, p', g, z, k⟩ := C x y hl
    dsimp only at r1 r2 r
    rcases he with rfl | rfl | rfl | rfl | rfl | rfl
    · rw [r1.1, r2.1, r.1, oR, ar]
      split_ifs <;> ring
    · rw [p1, p2, p', oP, ap]; ring
    · rw [z1, z2, z, oZ, az]; ring
    · rw [r1.2, r2.2, r.2, oR, ar]
      split_ifs <;> ring
    · rw [g1, g2, g, oP, ap]; ring
    · rw [k1, k2, k, oZ, az]; ring

/-- **C107**, undivided: for any number of steps and any media, if the currents of a run are a superposition of the currents of two other runs
with the same media, so are its fields, in every cell. -/
theorem C107_whole {s1 s2 s : Sources K} (h1 : SameMedia p s1 s) (h2 : SameMedia p s2 s) (hs : Superposed p a b s1 s2 s) (n : Nat) :
    ∃ m1 m2 m, wholeRun p s1 n = .ok m1 ∧ wholeRun p s2 n = .ok m2 ∧ wholeRun p s n = .ok m ∧
      ∀ c x y, c.isSource = false → p.inside x y → m c x y = a * m1 c x y + b * m2 c x y := by
  induction n with
  | zero => exact ⟨_, _, _, rfl, rfl, rfl, fun c x y _ _ => by simp⟩
  | succ n ih =>
    obtain ⟨m1, m2, m, e1, e2, e, h⟩ := ih
    have src : ∀ (q : Sources K) (m : Mem K) (c : Comp) x y, c.isSource = true → setSources (q n) m c x y = q n c x y := fun q m c x y hc => if_pos hc
    have M : Mix p a b (setSources (s1 n) m1) (setSources (s2 n) m2) (setSources (s n) m) := by
      refine ⟨?_, ?_, ?_⟩
      · intro c x y hc hl
        have k : c.isSource = true := by revert hc; cases c <;> decide
        rw [src _ _ _ _ _ k, src _ _ _ _ _ k, src _ _ _ _ _ k]
        exact ⟨h1 n c x y hc hl, h2 n c x y hc hl⟩
      · intro c x y hc hl
        have k : c.isSource = true := by revert hc; cases c <;> decide
        rw [src _ _ _ _ _ k, src _ _ _ _ _ k, src _ _ _ _ _ k]
        exact hs n c x y hc hl
      · intro c x y hc hin
        unfold setSources
        rw [hc]
        exact h c x y hc hin
    obtain ⟨n1, o1, a1, b1⟩ := step_forms p hr hr' hz hz' (setSources (s1 n) m1)
    obtain ⟨n2, o2, a2, b2⟩ := step_forms p hr hr' hz hz' (setSources (s2 n) m2)
    obtain ⟨n0, o, a0, b0⟩ := step_forms p hr hr' hz hz' (setSources (s n) m)
    refine ⟨o1, o2, o, ?_, ?_, ?_, (mix_H hr (mix_E hr hr' hz hz' M a1 a2 a0) b1 b2 b0).field⟩
    · rw [wholeRun, e1, Res.ok_bind, a1, Res.ok_bind, b1]
    · rw [wholeRun, e2, Res.ok_bind, a2, Res.ok_bind, b2]
    · rw [wholeRun, e, Res.ok_bind, a0, Res.ok_bind, b0]

/-- C107: without currents there are no fields. -/
theorem C107_vacuum {s : Sources K} (hs : ∀ t c x y, c.isCurrent = true → p.logical x y → s t c x y = 0) (n : Nat) :
    ∃ m, wholeRun p s n = .ok m ∧ ∀ c x y, c.isSource = false → p.inside x y → m c x y = 0 := by
  obtain ⟨_, _, m, _, _, e, h⟩ := C107_whole hr hr' hz hz' (a := 0) (b := 0) (s1 := s) (s2 := s) (s := s) (fun _ _ _ _ _ _ => rfl)
    (fun _ _ _ _ _ _ => rfl) (fun t c x y hc hl => by rw [hs t c x y hc hl]; ring) n
  exact ⟨m, e, fun c x y hc hin => by rw [h c x y hc hin]; ring⟩

/-- **C108**, undivided: after `n` steps the fields in a cell only depend on the currents and media at most `n` cells away: those of step `t` at most
`n - t` cells away. -/
theorem C108_whole {s s' : Sources K} (n : Nat) : ∃ m m', wholeRun p s n = .ok m ∧ wholeRun p s' n = .ok m' ∧
    ∀ X Y, p.inside X Y → AgreeNear p n X Y s s' → ∀ c, c.isSource = false → m c X Y = m' c X Y := by
  induction n with
  | zero => exact ⟨_, _, rfl, rfl, fun X Y _ _ c _ => rfl⟩
  | succ n ih =>
    obtain ⟨m, m', e, e', h⟩ := ih
    obtain ⟨n1, f1, A1, B1, C1⟩ := calcE_eq p hr hr' hz hz' (setSources (s n) m)
    obtain ⟨n2, f2, A2, B2, C2⟩ := calcE_eq p hr hr' hz hz' (setSources (s' n) m')
    obtain ⟨o1, g1, D1, E1, F1⟩ := calcH_eq p hr n1
    obtain ⟨o2, g2, D2, E2, F2⟩ := calcH_eq p hr n2
    refine ⟨o1, o2, ?_, ?_, ?_⟩
    · rw [wholeRun, e, Res.ok_bind, f1, Res.ok_bind, g1]
    · rw [wholeRun, e', Res.ok_bind, f2, Res.ok_bind, g2]
    intro X Y hin ag
    -- the state before the step, one cell around
    have old : ∀ x y, p.inside x y → Within 1 X Y x y → ∀ c, c.isSource = false → setSources (s n) m c x y = setSources (s' n) m' c x y := by
      intro x y hi w c hc
      unfold setSources
      rw [hc]
      refine h x y hi ?_ c hc
      intro t c' x' y' ht hc' hl w'
      refine ag t c' x' y' (by omega) hc' hl ?_
      unfold Within at *
      omega
    have src : ∀ x y, p.logical x y → Within 1 X Y x y → ∀ c, c.isSource = true → setSources (s n) m c x y = setSources (s' n) m' c x y := by
      intro x y hi w c hc
      unfold setSources
      rw [hc]
      refine ag n c x y (by omega) hc hi ?_
      rw [show n + 1 - n = 1 by omega]
      exact w
    -- the electric field after the step
    have el : ∀ x y, p.inside x y → (x = X ∧ y = Y) ∨ (x = X + 1 ∧ y = Y) ∨ (x = X ∧ y = Y + 1) → ∀ c, isE c → n1 c x y = n2 c x y := by
      intro x y hi w c hc
      by_cases hl : p.logical x y
      swap
      · rw [B1 c x y hc hi hl, B2 c x y hc hi hl]
      obtain ⟨_, _, _, i3, i4⟩ := near_inside hl
      have w0 : Within 1 X Y x y := by unfold Within; omega
      have w3 : Within 1 X Y (x - 1) y := by unfold Within; omega
      have w4 : Within 1 X Y x (y - 1) := by unfold Within; omega
      have new : ∀ o o' X X' : K, o = o' → X = X' → newE p (setSources (s n) m) x y o X = newE p (setSources (s' n) m') x y o' X' := by
        rintro o _ q _ rfl rfl
        unfold newE
        rw [src x y hl w0 .eps rfl, src x y hl w0 .sig rfl]
      have oR := old x y hi w0 .er rfl
      have oP := old x y hi w0 .ep rfl
      have oZ := old x y hi w0 .ez rfl
      have xr : xR p (setSources (s n) m) x y = xR p (setSources (s' n) m') x y := by
        unfold xR
        rw [src x y hl w0 .jr rfl, old x y hi w0 .hp rfl, old x (y - 1) i4 w4 .hp rfl]
      have xp : xP p (setSources (s n) m) x y = xP p (setSources (s' n) m') x y := by
        unfold xP
        rw [src x y hl w0 .jp rfl, old x y hi w0 .hr rfl, old x (y - 1) i4 w4 .hr rfl, old x y hi w0 .hz rfl, old (x - 1) y i3 w3 .hz rfl]
      have xz : xZ p (setSources (s n) m) x y = xZ p (setSources (s' n) m') x y := by
        unfold xZ
        rw [src x y hl w0 .jz rfl, old x y hi w0 .hp rfl, old (x - 1) y i3 w3 .hp rfl]
      have xa : xA p (setSources (s n) m) x y = xA p (setSources (s' n) m') x y := by
        unfold xA
        rw [src x y hl w0 .jz rfl, old x y hi w0 .hp rfl]
      obtain ⟨r1, p1, z1⟩ := C1 x y hl
      obtain ⟨r2, p2, z2⟩ := C2 x y hl
      rcases hc with rfl | rfl | rfl
      · rw [r1, r2]
        split_ifs
        · exact new _ _ _ _ oR xr
        · exact oR
      · rw [p1, p2]
        split_ifs
        · exact new _ _ _ _ oP xp
        · exact oP
      · rw [z1, z2]
        split_ifs
        · exact new _ _ _ _ oZ xz
        · exact new _ _ _ _ oZ xa
        · exact oZ
    have nE : ∀ c, isH c → ¬ isE c := by
      intro c; cases c <;> (unfold isE isH; decide)
    have nS : ∀ c, isH c → c.isSource = false := by
      intro c; cases c <;> (unfold isH; decide)
    intro c hc
    rcases isE_cases hc with hE | hH
    · have nH : ¬ isH c := fun k => nE c k hE
      rw [D1 _ _ _ nH, D2 _ _ _ nH]
      exact el X Y hin (.inl ⟨rfl, rfl⟩) c hE
    · by_cases hl : p.logical X Y
      swap
      · rw [F1 c X Y hH hin hl, F2 c X Y hH hin hl]
      obtain ⟨_, i1, i2, _, _⟩ := near_inside hl
      have h0 : ∀ c, isH c → n1 c X Y = n2 c X Y := by
        intro c k
        rw [A1 _ _ _ (nE c k), A2 _ _ _ (nE c k)]
        exact old X Y hin (by unfold Within; omega) c (nS c k)
      have l0 := el X Y hin (.inl ⟨rfl, rfl⟩)
      have l1 := el (X + 1) Y i1 (.inr (.inl ⟨rfl, rfl⟩))
      have l2 := el X (Y + 1) i2 (.inr (.inr ⟨rfl, rfl⟩))
      have ar : aR p n1 X Y = aR p n2 X Y := by
        unfold aR
        rw [l0 .ep (by unfold isE; decide), l2 .ep (by unfold isE; decide)]
      have ap : aP p n1 X Y = aP p n2 X Y := by
        unfold aP
        rw [l0 .ez (by unfold isE; decide), l1 .ez (by unfold isE; decide), l0 .er (by unfold isE; decide), l2 .er (by unfold isE; decide)]
      have az : aZ p n1 X Y = aZ p n2 X Y := by
        unfold aZ
        rw [l0 .ep (by unfold isE; decide), l1 .ep (by unfold isE; decide)]
      have oR := h0 .hr (by unfold isH; decide)
      have oP := h0 .hp (by unfold isH; decide)
      have oZ := h0 .hz (by unfold isH; decide)
      obtain ⟨r1, p1, q1, z1, k1⟩ := E1 X Y hl
      obtain ⟨r2, p2, q2, z2, k2⟩ := E2 X Y hl
      dsimp only at r1 r2
      rcases hH with rfl | rfl | rfl | rfl | rfl | rfl
      · rw [r1.1, r2.1, oR, ar]
      · rw [p1, p2, oP, ap]
      · rw [z1, z2, oZ, az]
      · rw [r1.2, r2.2, oR, ar]
      · rw [q1, q2, oP, ap]
      · rw [k1, k2, oZ, az]

end

theorem Divided.sizes {p : Par K} {domR domZ : Nat} (hd : Divided p domR domZ) : 1 ≤ p.nr ∧ p.nr < 2 ^ 32 ∧ 1 ≤ p.nz ∧ p.nz < 2 ^ 32 := by
  have := hd.r1; have := hd.r2; have := hd.r3; have := hd.z1; have := hd.z2; have := hd.z3
  omega

variable [CharZero K]

theorem cell_logical {p : Par K} {domR domZ : Nat} (hd : Divided p domR domZ) {i j : Nat} (hi : i < domR) (hj : j < domZ) {x y : Int}
    (hl : (winPar p domR domZ i j).logical x y) : p.logical (low p.nr domR i + x) (low p.nz domZ j + y) := by
  obtain ⟨⟨b1, b2, _⟩, c1, c2, _⟩ := hd.bounds hi hj
  unfold Par.logical at hl ⊢
  rw [winPar_nr, winPar_nz] at hl
  omega

/-- **C107** for every division of the volume: what the domains hold after `n` steps superposes. -/
theorem C107_divided {p : Par K} {domR domZ : Nat} (hd : Divided p domR domZ) {a b : K} {l1 l2 l : Nat → Nat → Nat → Comp → Int → Int → K}
    {s1 s2 s : Sources K} (d1 : ∀ t, SameSources p domR domZ (l1 t) (s1 t)) (d2 : ∀ t, SameSources p domR domZ (l2 t) (s2 t))
    (d : ∀ t, SameSources p domR domZ (l t) (s t)) (h1 : SameMedia p s1 s) (h2 : SameMedia p s2 s) (hs : Superposed p a b s1 s2 s) (n : Nat) :
    ∃ M1 M2 M, dividedRun (domPar p domR domZ) domR domZ l1 n = .ok M1 ∧ dividedRun (domPar p domR domZ) domR domZ l2 n = .ok M2 ∧
      dividedRun (domPar p domR domZ) domR domZ l n = .ok M ∧
      ∀ c i j x y, c.isSource = false → CellOf p domR domZ i j x y → M i j c x y = a * M1 i j c x y + b * M2 i j c x y := by
  obtain ⟨q1, q2, q3, q4⟩ := hd.sizes
  obtain ⟨m1, m2, m, e1, e2, e, h⟩ := C107_whole q1 q2 q3 q4 h1 h2 hs n
  obtain ⟨M1, m1', f1, g1, k1⟩ := C62_cells p hd l1 s1 d1 n
  obtain ⟨M2, m2', f2, g2, k2⟩ := C62_cells p hd l2 s2 d2 n
  obtain ⟨M, m', f, g, k⟩ := C62_cells p hd l s d n
  obtain rfl := Res.ok.inj (e1.symm.trans g1)
  obtain rfl := Res.ok.inj (e2.symm.trans g2)
  obtain rfl := Res.ok.inj (e.symm.trans g)
  refine ⟨M1, M2, M, f1, f2, f, fun c i j x y hc hx => ?_⟩
  rw [k1 c i j x y hc hx, k2 c i j x y hc hx, k c i j x y hc hx]
  refine h c _ _ hc (near_inside ?_).1
  obtain ⟨hi, hj, hl⟩ := (cellOf_iff p domR domZ i j x y).mp hx
  exact cell_logical hd hi hj hl

/-- **C108** for every division of the volume. -/
theorem C108_divided {p : Par K} {domR domZ : Nat} (hd : Divided p domR domZ) {l l' : Nat → Nat → Nat → Comp → Int → Int → K}
    {s s' : Sources K} (d : ∀ t, SameSources p domR domZ (l t) (s t)) (d' : ∀ t, SameSources p domR domZ (l' t) (s' t)) (n : Nat) :
    ∃ M M', dividedRun (domPar p domR domZ) domR domZ l n = .ok M ∧ dividedRun (domPar p domR domZ) domR domZ l' n = .ok M' ∧
      ∀ c i j x y, c.isSource = false → CellOf p domR domZ i j x y →
        AgreeNear p n (low p.nr domR i + x) (low p.nz domZ j + y) s s' → M i j c x y = M' i j c x y := by
  obtain ⟨q1, q2, q3, q4⟩ := hd.sizes
  obtain ⟨m, m', e, e', h⟩ := C108_whole q1 q2 q3 q4 (s := s) (s' := s') n
  obtain ⟨M, _, f, g, k⟩ := C62_cells p hd l s d n
  obtain ⟨M', _, f', g', k'⟩ := C62_cells p hd l' s' d' n
  obtain rfl := Res.ok.inj (e.symm.trans g)
  obtain rfl := Res.ok.inj (e'.symm.trans g')
  refine ⟨M, M', f, f', fun c i j x y hc hx ag => ?_⟩
  rw [k c i j x y hc hx, k' c i j x y hc hx]
  obtain ⟨hi, hj, hl⟩ := (cellOf_iff p domR domZ i j x y).mp hx
  exact h _ _ (near_inside (cell_logical hd hi hj hl)).1 ag c hc

/-! ### Instances -/

/-- Two currents and their difference. -/
def exSrc2 (t : Nat) : Comp → Int → Int → ℚ
  | .eps, _, _ => 1
  | .jz, x, y => if t = 1 ∧ x = 1 ∧ y = 3 then 5 else 0
  | _, _, _ => 0
def exDiff (t : Nat) (c : Comp) (x y : Int) : ℚ := if c = .eps then 1 else 2 * exSrc t c x y + -3 * exSrc2 t c x y

example : SameMedia exArea exSrc exDiff ∧ SameMedia exArea exSrc2 exDiff ∧ Superposed exArea 2 (-3) exSrc exSrc2 exDiff := by
  refine ⟨?_, ?_, ?_⟩
  · intro t c x y hc _
    cases c <;> first | exact absurd hc (by decide) | rfl | simp [exSrc, exSrc2, exDiff]
  · intro t c x y hc _
    cases c <;> first | exact absurd hc (by decide) | rfl | simp [exSrc, exSrc2, exDiff]
  · intro t c x y hc _
    cases c <;> first | exact absurd hc (by decide) | simp [exDiff]

/-- A current in cell (2, 1) in the first step: cell (0, 3) is two cells away, so after one step it has no field; after one step the cell
before it has one (`ex_moves`). -/
example : AgreeNear exArea 1 0 3 exSrc (fun _ c _ _ => if c = .eps then 1 else 0) := by
  intro t c x y ht hc _ w
  unfold Within at w
  cases c <;> first | exact absurd hc (by decide) | rfl | skip
  show (if _ then _ else _) = _
  rw [if_neg (by omega)]
  rfl

end Yee
end Pico
