import Verif.Lemmas.Energy
import Verif.Lemmas.Stable
import Verif.Model.FieldStep
import Verif.Props.Fields
import Mathlib.Algebra.Order.BigOperators.Group.Finset

/-! # C76 (energy balance) and C77 (stability) of the field solver in a closed chamber -/

set_option linter.unusedSimpArgs false
set_option linter.unusedVariables false
set_option linter.unusedSectionVars false

namespace Pico
namespace Yee

variable {K : Type _} [Field K] [LinearOrder K] [IsStrictOrderedRing K]

/-! ### C76 -/

theorem setSources_field (J : Comp → Int → Int → K) (m : Mem K) {c : Comp} (h : c.isSource = false) :
    setSources J m c = m c := by
  funext x y; unfold setSources; rw [h]; rfl

theorem setSources_source (J : Comp → Int → Int → K) (m : Mem K) {c : Comp} (h : c.isSource = true) :
    setSources J m c = J c := by
  funext x y; unfold setSources; rw [h]; rfl

/-- One step of a closed chamber. -/
theorem step_closed {p : Par K} (hp : p.Good) (hc : Closed p) (eps : Int → Int → K) (s : Comp → Int → Int → K)
    (he : s .eps = eps) (hd : ∀ i k, p.logical i k → 2 * eps i k + s .sig i k * p.dt ≠ 0) {m : Mem K} (hs : Shut p m) :
    ∃ m', (calcE p (setSources s m) >>= calcH p) = .ok m' ∧ Shut p m' ∧ Link p m m' ∧ m' .eps = eps ∧ m' .sig = s .sig ∧
      m' .jr = s .jr ∧ m' .jp = s .jp ∧ m' .jz = s .jz ∧
      ∀ a, Link p a m → fieldEnergy p eps m m' - fieldEnergy p eps a m = -(p.dt * power p m m') := by
  set b := setSources s m with hb
  have sb : Shut p b := hs.congr (setSources_field _ _ rfl) (setSources_field _ _ rfl) (setSources_field _ _ rfl)
  obtain ⟨n, en⟩ := calcE_defined p hp b
  obtain ⟨m', em⟩ := calcH_defined p hp n
  have be : b .eps = eps := (setSources_source _ _ rfl).trans he
  have bs : b .sig = s .sig := setSources_source _ _ rfl
  obtain ⟨sn, fn, mv⟩ := calcE_closed hp hc en sb (fun i k hl => by rw [be, bs]; exact hd i k hl)
  obtain ⟨sm, fm, lk⟩ := calcH_closed hp em sn
  have keep : ∀ c, ¬ isE c → ¬ isH c → m' c = b c := fun c h1 h2 => by
    funext i k; rw [fm c i k h2, fn c i k h1]
  have keepE : ∀ c, isE c → m' c = n c := fun c h1 => by
    funext i k
    refine fm c i k ?_
    unfold isE at h1; unfold isH
    rcases h1 with rfl | rfl | rfl <;> decide
  have keepH : ∀ c, isH c → n c = m c := fun c h1 => by
    have h2 : c.isSource = false ∧ ¬ isE c := by
      unfold isH at h1; unfold isE
      rcases h1 with rfl | rfl | rfl | rfl | rfl | rfl <;> exact ⟨rfl, by decide⟩
    funext i k
    rw [fn c i k h2.2, hb, setSources_field _ _ h2.1]
  have k1 := keep .eps (by unfold isE; decide) (by unfold isH; decide)
  have k2 := keep .sig (by unfold isE; decide) (by unfold isH; decide)
  have k3 := keep .jr (by unfold isE; decide) (by unfold isH; decide)
  have k4 := keep .jp (by unfold isE; decide) (by unfold isH; decide)
  have k5 := keep .jz (by unfold isE; decide) (by unfold isH; decide)
  have e1 := keepE .er (by unfold isE; decide)
  have e2 := keepE .ep (by unfold isE; decide)
  have e3 := keepE .ez (by unfold isE; decide)
  have g1 := keepH .hr (by unfold isH; decide)
  have g2 := keepH .hp (by unfold isH; decide)
  have g3 := keepH .hz (by unfold isH; decide)
  have b1 : b .er = m .er := setSources_field _ _ rfl
  have b2 : b .ep = m .ep := setSources_field _ _ rfl
  have b3 : b .ez = m .ez := setSources_field _ _ rfl
  have b4 : b .hr = m .hr := setSources_field _ _ rfl
  have b5 : b .hp = m .hp := setSources_field _ _ rfl
  have b6 : b .hz = m .hz := setSources_field _ _ rfl
  have lkm : Link p m m' := by
    intro i k hl
    have := lk i k hl
    rw [g1, g2, g3] at this
    exact this
  refine ⟨m', by rw [en]; exact em, sm, lkm, k1.trans be, k2.trans bs, k3.trans (setSources_source _ _ rfl),
    k4.trans (setSources_source _ _ rfl), k5.trans (setSources_source _ _ rfl), fun a la => ?_⟩
  have la' : Link p a b := by
    intro i k hl
    have := la i k hl
    unfold aR aP aZ at *
    rw [b1, b2, b3, b4, b5, b6]
    exact this
  have lb' : Link p b m' := by
    intro i k hl
    have := lkm i k hl
    rw [b4, b5, b6]
    exact this
  have mv' : Moves p eps b m' := by
    intro i k hl
    obtain ⟨x, y, z⟩ := mv i k hl
    unfold mean
    rw [k2, e1, e2, e3, ← be]
    exact ⟨x, y, z⟩
  have key := balance hp hc sb sm la' lb' mv' (fun i k => ⟨by rw [k3], by rw [k4], by rw [k5]⟩)
  have c1 : fieldEnergy p eps b m' = fieldEnergy p eps m m' := by
    unfold fieldEnergy magneticEnergy; rw [b4, b5, b6]
  have c2 : fieldEnergy p eps a b = fieldEnergy p eps a m := by
    unfold fieldEnergy magneticEnergy electricEnergy; rw [b1, b2, b3, b4, b5, b6]
  have c3 : power p b m' = power p m m' := by
    unfold power; rw [b1, b2, b3]
  rw [c1, c2, c3] at key
  exact key

/-- The states of a run. -/
theorem run_closed {p : Par K} (hp : p.Good) (hc : Closed p) (eps : Int → Int → K) (src : Nat → Comp → Int → Int → K)
    (he : ∀ t, src t .eps = eps) (hd : ∀ t i k, p.logical i k → 2 * eps i k + src t .sig i k * p.dt ≠ 0) :
    ∃ S : Nat → Mem K, (∀ t, wholeRun p src t = .ok (S t)) ∧ (∀ t, Shut p (S t)) ∧ (∀ t, Link p (S t) (S (t + 1))) ∧
      (∀ t, S (t + 1) .sig = src t .sig ∧ S (t + 1) .jr = src t .jr ∧ S (t + 1) .jp = src t .jp ∧
        S (t + 1) .jz = src t .jz) ∧
      fieldEnergy p eps (S 0) (S 1) = -(p.dt * power p (S 0) (S 1)) ∧
      ∀ t, fieldEnergy p eps (S (t + 1)) (S (t + 2)) - fieldEnergy p eps (S t) (S (t + 1)) =
        -(p.dt * power p (S (t + 1)) (S (t + 2))) := by
  have step : ∀ (t : Nat) (m : Mem K), Shut p m → _ := fun t m hs =>
    step_closed hp hc eps (src t) (he t) (hd t) hs
  have z : Shut p (fun _ _ _ => (0 : K)) := ⟨fun _ _ _ => rfl, fun _ _ _ => ⟨rfl, rfl⟩, fun _ _ _ => rfl, fun _ _ _ => rfl,
    fun _ _ _ => ⟨rfl, rfl⟩, fun _ _ _ => ⟨rfl, rfl⟩, fun _ _ _ => rfl, fun _ _ _ => rfl, fun _ _ _ => ⟨rfl, rfl⟩, rfl⟩
  have ex : ∀ t, ∃ m, wholeRun p src t = .ok m ∧ Shut p m := by
    intro t
    induction t with
    | zero => exact ⟨_, rfl, z⟩
    | succ t ih =>
      obtain ⟨m, e, hs⟩ := ih
      obtain ⟨m', e', hs', _⟩ := step t m hs
      exact ⟨m', by rw [wholeRun, e, Res.ok_bind]; exact e', hs'⟩
  choose S hS using ex
  have nxt : ∀ t, ∃ m', S (t + 1) = m' ∧ (calcE p (setSources (src t) (S t)) >>= calcH p) = .ok m' := by
    intro t
    obtain ⟨m', e', _⟩ := step t (S t) (hS t).2
    have := (hS (t + 1)).1
    rw [wholeRun, (hS t).1, Res.ok_bind, e'] at this
    exact ⟨m', (Res.ok.inj this).symm, e'⟩
  have all : ∀ t, Link p (S t) (S (t + 1)) ∧ (S (t + 1) .sig = src t .sig ∧ S (t + 1) .jr = src t .jr ∧
      S (t + 1) .jp = src t .jp ∧ S (t + 1) .jz = src t .jz) ∧
      ∀ a, Link p a (S t) → fieldEnergy p eps (S t) (S (t + 1)) - fieldEnergy p eps a (S t) =
        -(p.dt * power p (S t) (S (t + 1))) := by
    intro t
    obtain ⟨m', e', _, lk, _, k2, k3, k4, k5, bal⟩ := step t (S t) (hS t).2
    obtain ⟨m'', h1, h2⟩ := nxt t
    obtain rfl : m'' = m' := Res.ok.inj (h2.symm.trans e')
    rw [h1]
    exact ⟨lk, ⟨k2, k3, k4, k5⟩, bal⟩
  refine ⟨S, fun t => (hS t).1, fun t => (hS t).2, fun t => (all t).1, fun t => (all t).2.1, ?_,
    fun t => (all (t + 1)).2.2 _ (all t).1⟩
  have s0 : S 0 = fun _ _ _ => 0 := (Res.ok.inj (hS 0).1).symm
  have l0 : Link p (fun _ _ _ => (0 : K)) (S 0) := by
    intro i k hl
    rw [s0]
    unfold aR aP aZ
    simp
  have := (all 0).2.2 _ l0
  have f0 : fieldEnergy p eps (fun _ _ _ => 0) (S 0) = 0 := by
    rw [s0]
    unfold fieldEnergy electricEnergy magneticEnergy
    simp [boxSum_zero]
  rw [f0, sub_zero] at this
  exact this

/-- **C76.**  In a closed chamber that starts without fields, for every history of currents and conductivities: after any
number of steps the energy of the fields is minus the sum, over all steps, of the work the fields have done on the currents
and the heat in conducting media, exactly. -/
theorem C76_balance (p : Par K) (hp : p.Good) (hc : Closed p) (eps : Int → Int → K) (src : Nat → Comp → Int → Int → K)
    (he : ∀ t, src t .eps = eps) (hd : ∀ t i k, p.logical i k → 2 * eps i k + src t .sig i k * p.dt ≠ 0) :
    ∃ S : Nat → Mem K, (∀ t, wholeRun p src t = .ok (S t)) ∧
      ∀ n, fieldEnergy p eps (S n) (S (n + 1)) = -∑ t ∈ Finset.range (n + 1), p.dt * power p (S t) (S (t + 1)) := by
  obtain ⟨S, h, _, _, _, h0, h1⟩ := run_closed hp hc eps src he hd
  refine ⟨S, h, fun n => ?_⟩
  induction n with
  | zero => rw [Finset.sum_range_one, h0]
  | succ n ih =>
    rw [Finset.sum_range_succ, neg_add, ← ih, ← h1 n]
    ring

/-! ### C77 -/

/-- No current flows from step `t0` on. -/
def Quiet (src : Nat → Comp → Int → Int → K) (t0 : Nat) : Prop :=
  ∀ t, t0 ≤ t → ∀ i k, src t .jr i k = 0 ∧ src t .jp i k = 0 ∧ src t .jz i k = 0

theorem power_nonneg {p : Par K} (hp : p.Good) {a b : Mem K}
    (hj : ∀ i k, b .jr i k = 0 ∧ b .jp i k = 0 ∧ b .jz i k = 0) (hs : ∀ i k, p.logical i k → 0 ≤ b .sig i k) :
    0 ≤ power p a b := by
  unfold power
  refine boxSum_nonneg fun i k hl => ?_
  have := volHalf_nonneg hp hl.1.1
  have := volNode_nonneg hp hl.1.1
  have := hs i k hl
  dsimp only
  rw [(hj i k).1, (hj i k).2.1, (hj i k).2.2]
  simp only [zero_mul, zero_add]
  positivity

theorem power_zero {p : Par K} {a b : Mem K}
    (hj : ∀ i k, b .jr i k = 0 ∧ b .jp i k = 0 ∧ b .jz i k = 0) (hs : ∀ i k, b .sig i k = 0) : power p a b = 0 := by
  unfold power
  rw [← boxSum_zero p]
  refine boxSum_congr fun i k hl => ?_
  dsimp only
  rw [(hj i k).1, (hj i k).2.1, (hj i k).2.2, hs i k]
  ring

/-- **C76, no loss.**  Once no current flows and nothing conducts, the energy of the fields never changes again. -/
theorem C76_conserved (p : Par K) (hp : p.Good) (hc : Closed p) (eps : Int → Int → K) (src : Nat → Comp → Int → Int → K)
    (he : ∀ t, src t .eps = eps) (hd : ∀ t i k, p.logical i k → 2 * eps i k + src t .sig i k * p.dt ≠ 0)
    (t0 : Nat) (hq : Quiet src t0) (hs : ∀ t, t0 ≤ t → ∀ i k, src t .sig i k = 0) :
    ∃ S : Nat → Mem K, (∀ t, wholeRun p src t = .ok (S t)) ∧
      ∀ n, t0 ≤ n → fieldEnergy p eps (S n) (S (n + 1)) = fieldEnergy p eps (S t0) (S (t0 + 1)) := by
  obtain ⟨S, h, _, _, hsrc, _, h1⟩ := run_closed hp hc eps src he hd
  refine ⟨S, h, fun n hn => ?_⟩
  induction n, hn using Nat.le_induction with
  | base => rfl
  | succ n hn ih =>
    obtain ⟨k2, k3, k4, k5⟩ := hsrc (n + 1)
    have h0 : power p (S (n + 1)) (S (n + 2)) = 0 := by
      refine power_zero (fun i k => ?_) (fun i k => ?_)
      · have := hq (n + 1) (by omega) i k
        rw [k3, k4, k5]; exact this
      · rw [k2]; exact hs (n + 1) (by omega) i k
    have := h1 n
    rw [h0] at this
    rw [← ih]
    linear_combination this

/-- **C77.**  In a closed chamber with a time step below the Courant limit, from the step on from which no currents flow the
fields stay bounded for ever: the electric energy and the energy of the magnetic field that acts on particles never exceed
what the field energy was at that moment. -/
theorem C77_bounded (p : Par K) (hp : p.Good) (hc : Closed p) (eps : Int → Int → K) (e0 : K) (h0 : 0 < e0)
    (hee : ∀ i k, p.logical i k → e0 ≤ eps i k) (src : Nat → Comp → Int → Int → K)
    (he : ∀ t, src t .eps = eps) (hs : ∀ t i k, p.logical i k → 0 ≤ src t .sig i k) (t0 : Nat) (hq : Quiet src t0) :
    ∃ S : Nat → Mem K, (∀ t, wholeRun p src t = .ok (S t)) ∧
      ∀ n, t0 ≤ n → (1 - courant p e0) * electricEnergy p eps (S (n + 1)) + meanMagneticEnergy p (S n) (S (n + 1)) ≤
        fieldEnergy p eps (S t0) (S (t0 + 1)) := by
  have hd : ∀ t i k, p.logical i k → 2 * eps i k + src t .sig i k * p.dt ≠ 0 := by
    intro t i k hl
    have := hs t i k hl
    have := hp.dt
    have := hee i k hl
    have : 0 < 2 * eps i k + src t .sig i k * p.dt := by
      have : 0 < eps i k := by linarith
      positivity
    exact this.ne'
  obtain ⟨S, h, sh, lk, hsrc, _, h1⟩ := run_closed hp hc eps src he hd
  refine ⟨S, h, fun n hn => (energy_ge hp hc h0 hee (sh (n + 1)) (lk n)).trans ?_⟩
  induction n, hn using Nat.le_induction with
  | base => exact le_rfl
  | succ n hn ih =>
    obtain ⟨k2, k3, k4, k5⟩ := hsrc (n + 1)
    have hpw : 0 ≤ power p (S (n + 1)) (S (n + 2)) := by
      refine power_nonneg hp (fun i k => ?_) (fun i k hl => ?_)
      · have := hq (n + 1) (by omega) i k
        rw [k3, k4, k5]; exact this
      · rw [k2]; exact hs (n + 1) i k hl
    have := h1 n
    have := mul_nonneg hp.dt.le hpw
    linarith

/-- **C77, every component.**  Below the Courant limit every value of the electric field in the chamber is bounded by the same
constant at all later times. -/
theorem C77_components (p : Par K) (hp : p.Good) (hc : Closed p) (eps : Int → Int → K) (e0 : K) (h0 : 0 < e0)
    (hee : ∀ i k, p.logical i k → e0 ≤ eps i k) (src : Nat → Comp → Int → Int → K)
    (he : ∀ t, src t .eps = eps) (hs : ∀ t i k, p.logical i k → 0 ≤ src t .sig i k) (t0 : Nat) (hq : Quiet src t0)
    (hcfl : courant p e0 < 1) :
    ∃ S : Nat → Mem K, (∀ t, wholeRun p src t = .ok (S t)) ∧ ∃ B : K, ∀ n, t0 ≤ n → ∀ i k, p.logical i k →
      S (n + 1) .er i k ^ 2 ≤ B ∧ S (n + 1) .ep i k ^ 2 ≤ B ∧ S (n + 1) .ez i k ^ 2 ≤ B := by
  obtain ⟨S, h, hb⟩ := C77_bounded p hp hc eps e0 h0 hee src he hs t0 hq
  have dr := hp.dr
  have dz := hp.dz
  set W := fieldEnergy p eps (S t0) (S (t0 + 1))
  -- the smallest volume
  set v : K := p.dr ^ 2 * p.dz / 8 with hv
  have v0 : 0 < v := by positivity
  refine ⟨S, h, W / (1 - courant p e0) / (e0 / 2 * v), fun n hn i k hl => ?_⟩
  have hm : 0 ≤ meanMagneticEnergy p (S n) (S (n + 1)) := by
    unfold meanMagneticEnergy
    refine boxSum_nonneg fun i k hl => ?_
    have := volHalf_nonneg hp hl.1.1
    have := volNode_nonneg hp hl.1.1
    have := hp.mu
    positivity
  have c1 : 0 < 1 - courant p e0 := by linarith
  have h1 : electricEnergy p eps (S (n + 1)) ≤ W / (1 - courant p e0) := by
    rw [le_div_iff₀ c1]
    have := hb n hn
    linarith
  have term : e0 / 2 * v * (S (n + 1) .er i k ^ 2 + S (n + 1) .ep i k ^ 2 + S (n + 1) .ez i k ^ 2) ≤
      electricEnergy p eps (S (n + 1)) := by
    set f : Int → Int → K := fun i k => eps i k / 2 * (volHalf p i * S (n + 1) .er i k ^ 2 +
      volNode p i * (S (n + 1) .ep i k ^ 2 + S (n + 1) .ez i k ^ 2)) with hf
    have fpos : ∀ i k, p.logical i k → 0 ≤ f i k := by
      intro i k hl
      have := volHalf_nonneg hp hl.1.1
      have := volNode_nonneg hp hl.1.1
      have : 0 < eps i k := by have := hee i k hl; linarith
      simp only [hf]
      positivity
    have one : f i k ≤ boxSum p f := by
      obtain ⟨⟨i0, i1⟩, k0, k1⟩ := hl
      obtain ⟨a, rfl⟩ := Int.eq_ofNat_of_zero_le i0
      obtain ⟨b, rfl⟩ := Int.eq_ofNat_of_zero_le k0
      unfold boxSum
      have g : ∀ x ∈ Finset.range p.nr, ∀ y ∈ Finset.range p.nz, 0 ≤ f x y := by
        intro x hx y hy
        rw [Finset.mem_range] at hx hy
        exact fpos _ _ (by unfold Par.logical; omega)
      refine le_trans ?_ (Finset.single_le_sum (f := fun x : Nat => ∑ y ∈ Finset.range p.nz, f x y)
        (fun x hx => Finset.sum_nonneg (g x hx)) (Finset.mem_range.2 (by omega : a < p.nr)))
      exact Finset.single_le_sum (f := fun y : Nat => f a y) (g a (Finset.mem_range.2 (by omega)))
        (Finset.mem_range.2 (by omega : b < p.nz))
    refine le_trans ?_ one
    have i0 : (0 : K) ≤ (i : K) := by exact_mod_cast hl.1.1
    have vh : v ≤ volHalf p i := by
      rw [volHalf_eq, hv]
      have : 0 ≤ p.dr ^ 2 * p.dz := by positivity
      nlinarith
    have vn : v ≤ volNode p i := by
      by_cases hi : i = 0
      · rw [hi, volNode_zero]
      · rw [volNode_pos p hi, hv]
        have i1 : (1 : K) ≤ (i : K) := by
          have : 1 ≤ i := by have := hl.1.1; omega
          exact_mod_cast this
        have : 0 ≤ p.dr ^ 2 * p.dz := by positivity
        nlinarith
    have ee := hee i k hl
    have ep : 0 < eps i k := by linarith
    calc e0 / 2 * v * (S (n + 1) .er i k ^ 2 + S (n + 1) .ep i k ^ 2 + S (n + 1) .ez i k ^ 2)
        = e0 / 2 * (v * S (n + 1) .er i k ^ 2 + v * (S (n + 1) .ep i k ^ 2 + S (n + 1) .ez i k ^ 2)) := by ring
      _ ≤ f i k := by simp only [hf]; gcongr
  have tot := term.trans h1
  have den : 0 < e0 / 2 * v := by positivity
  have x1 := sq_nonneg (S (n + 1) .er i k)
  have x2 := sq_nonneg (S (n + 1) .ep i k)
  have x3 := sq_nonneg (S (n + 1) .ez i k)
  have fin : S (n + 1) .er i k ^ 2 + S (n + 1) .ep i k ^ 2 + S (n + 1) .ez i k ^ 2 ≤ W / (1 - courant p e0) / (e0 / 2 * v) := by
    rw [le_div_iff₀ den, mul_comm]
    exact tot
  exact ⟨by linarith, by linarith, by linarith⟩

/-! ### The hypotheses are met -/

/-- A chamber of 4 x 4 cells. -/
def exBox : Par ℚ := ⟨1, 1, 1/10, 1, 0, 4, 4, ⟨true, true, true, true⟩⟩

theorem exBox_good : exBox.Good :=
  ⟨by decide +kernel, by decide +kernel, by decide +kernel, by decide +kernel, by decide, by decide, by decide, by decide,
    by decide, by decide, by decide⟩

theorem exBox_closed : Closed exBox := ⟨rfl, by decide, by decide, rfl, rfl, rfl, rfl⟩

/-- An axial current in cell (2, 1) in the first step, in a medium with constant 1. -/
def exPulse (t : Nat) : Comp → Int → Int → ℚ
  | .eps, _, _ => 1
  | .jz, x, y => if t = 0 ∧ x = 2 ∧ y = 1 then 1 else 0
  | _, _, _ => 0

example : courant exBox 1 < 1 := by norm_num [courant, exBox]

example : Quiet exPulse 1 := by
  intro t ht i k
  refine ⟨rfl, rfl, ?_⟩
  show (if t = 0 ∧ i = 2 ∧ k = 1 then (1 : ℚ) else 0) = 0
  rw [if_neg (by omega)]

example : ∀ t i k, exBox.logical i k → 2 * (1 : ℚ) + exPulse t .sig i k * exBox.dt ≠ 0 := by
  intro t i k _
  show 2 * (1 : ℚ) + 0 * exBox.dt ≠ 0
  norm_num

/-- The energy of the example is not zero: the current takes energy from its own field. -/
theorem ex_energy : ∃ a b, wholeRun exBox exPulse 0 = .ok a ∧ wholeRun exBox exPulse (0 + 1) = .ok b ∧
    fieldEnergy exBox (fun _ _ => 1) a b = 1 / 100 := by
  obtain ⟨S, hS, hb⟩ := C76_balance exBox exBox_good exBox_closed (fun _ _ => 1) exPulse (fun _ => rfl)
    (fun t i k _ => by show 2 * (1 : ℚ) + 0 * exBox.dt ≠ 0; norm_num)
  refine ⟨S 0, S (0 + 1), hS 0, hS (0 + 1), ?_⟩
  obtain ⟨m1, e1, k1, k2, k3⟩ := calcE_eq exBox (by decide) (by decide) (by decide) (by decide)
    (setSources (exPulse 0) (fun _ _ _ => 0))
  obtain ⟨m2, e2, l1, l2, l3⟩ := calcH_eq exBox (by decide) m1
  have r1 := hS (0 + 1)
  rw [wholeRun, wholeRun, Res.ok_bind, e1, Res.ok_bind, e2] at r1
  have s1 : S (0 + 1) = m2 := (Res.ok.inj r1).symm
  have s0 : S 0 = fun _ _ _ => 0 := (Res.ok.inj (hS 0)).symm
  have b0 := hb 0
  rw [Finset.sum_range_one] at b0
  rw [b0, s0, s1]
  have z : ∀ c i k, m2 c i k = m1 c i k ∨ isH c := fun c i k => by
    by_cases hc : isH c
    · exact Or.inr hc
    · exact Or.inl (l1 c i k hc)
  have jr : m2 .jr = fun _ _ => 0 := by
    funext i k
    rw [l1 _ _ _ (by unfold isH; decide), k1 _ _ _ (by unfold isE; decide)]; rfl
  have jp : m2 .jp = fun _ _ => 0 := by
    funext i k
    rw [l1 _ _ _ (by unfold isH; decide), k1 _ _ _ (by unfold isE; decide)]; rfl
  have sg : m2 .sig = fun _ _ => 0 := by
    funext i k
    rw [l1 _ _ _ (by unfold isH; decide), k1 _ _ _ (by unfold isE; decide)]; rfl
  have jz : m2 .jz = fun x y => if x = 2 ∧ y = 1 then 1 else 0 := by
    funext i k
    rw [l1 _ _ _ (by unfold isH; decide), k1 _ _ _ (by unfold isE; decide)]
    show (if 0 = 0 ∧ i = 2 ∧ k = 1 then (1 : ℚ) else 0) = _
    simp
  have ez : m2 .ez 2 1 = -1/10 := by
    rw [l1 _ _ _ (by unfold isH; decide), (k3 2 1 (by decide)).2.2, if_pos (by decide)]
    norm_num [newE, xZ, koefE, koefH, setSources, exPulse, Comp.isSource, exBox]
  unfold power boxSum
  rw [jr, jp, jz, sg]
  norm_num [exBox, Finset.sum_range_succ, ez, volNode, volHalf, ringVolume]

end Yee
end Pico
