import Verif.Model.GeoCfg
import Verif.Props.Species

/-! # C91 — geometry of the configuration -/

set_option linter.unusedSimpArgs false
set_option linter.unusedVariables false
set_option linter.unusedSectionVars false

namespace Pico
namespace GeoCfg

open Species Probe

variable {K : Type _} [Field K] [LinearOrder K] [IsStrictOrderedRing K] [FloorRing K]

theorem toSize_ok {x : K} (h0 : -1 < x) (h1 : x < 2 ^ 64) : toSize x = .ok ⌊x⌋₊ := by
  unfold toSize
  rw [if_neg]
  rintro (h | h)
  · linarith
  · linarith

theorem toSize_nat {n : Nat} (h : n < 2 ^ 64) : toSize (n : K) = .ok n := by
  rw [toSize_ok (by have : (0 : K) ≤ n := Nat.cast_nonneg n; linarith) (by exact_mod_cast h), Nat.floor_natCast]

/-- A fraction of a number of cells, in whole cells. -/
theorem toSize_layer {f : K} {n : Nat} (h0 : 0 ≤ f) (h1 : f * n < 2 ^ 64) :
    toSize (⌊f * n⌋ : K) = .ok ⌊f * n⌋₊ := by
  have hn : 0 ≤ f * n := mul_nonneg h0 (Nat.cast_nonneg n)
  have e : ((⌊f * n⌋ : Int) : K) = ((⌊f * n⌋₊ : Nat) : K) := by
    rw [natCast_floor_eq_intCast_floor hn]
  rw [e]
  apply toSize_nat
  have : ((⌊f * n⌋₊ : Nat) : K) < ((2 ^ 64 : Nat) : K) := lt_of_le_of_lt (Nat.floor_le hn) (by push_cast; norm_num at h1 ⊢; exact h1)
  exact_mod_cast this

/-- The configured numbers make sense. -/
structure Good (e : Entry K) (nr nz dr dz : Nat) : Prop where
  radius : 0 < e.radius
  longitude : 0 < e.longitude
  gridR : e.gridR = nr
  gridZ : e.gridZ = nz
  nr0 : 0 < nr
  nz0 : 0 < nz
  nr1 : nr < 2 ^ 63
  nz1 : nz < 2 ^ 63
  domR : e.domR = dr
  domZ : e.domZ = dz
  dr1 : dr < 2 ^ 31
  dz1 : dz < 2 ^ 31

theorem init_of_good {e : Entry K} {nr nz dr dz : Nat} (h : Good e nr nz dr dz)
    (hl : 0 ≤ e.left ∧ e.left * nz < 2 ^ 64) (ho : 0 ≤ e.outer ∧ e.outer * nr < 2 ^ 64)
    (hr : 0 ≤ e.right ∧ e.right * nz < 2 ^ 64) :
    initGeometry e = .ok ⟨e.radius, e.longitude, nr, nz, e.radius / nr, e.longitude / nz, nr, nz,
      ⌊e.left * nz⌋₊, ⌊e.outer * nr⌋₊, ⌊e.right * nz⌋₊, dr, dz⟩ := by
  have hnr := h.nr0
  have hnz := h.nz0
  have n1 : (nr : K) ≠ 0 := by exact_mod_cast hnr.ne'
  have n2 : (nz : K) ≠ 0 := by exact_mod_cast hnz.ne'
  have e1 : e.radius / (e.radius / nr) = (nr : K) := by
    have := h.radius.ne'
    field_simp
  have e2 : e.longitude / (e.longitude / nz) = (nz : K) := by
    have := h.longitude.ne'
    field_simp
  have u : ∀ d : Nat, d < 2 ^ 31 → toU64 (d : Int) = d := by
    intro d hd
    unfold toU64
    omega
  have i1 : toInt e.domR = .ok (dr : Int) := by
    have k := h.dr1
    have : e.domR = ((dr : Int) : K) := by rw [h.domR]; push_cast; rfl
    rw [this]
    exact toInt_int (by omega) (by omega)
  have i2 : toInt e.domZ = .ok (dz : Int) := by
    have k := h.dz1
    have : e.domZ = ((dz : Int) : K) := by rw [h.domZ]; push_cast; rfl
    rw [this]
    exact toInt_int (by omega) (by omega)
  unfold initGeometry
  rw [h.gridR, h.gridZ, toSize_nat (by have := h.nr1; omega), Res.ok_bind, toSize_nat (by have := h.nz1; omega), Res.ok_bind,
    toSize_layer hl.1 hl.2, Res.ok_bind, toSize_layer ho.1 ho.2, Res.ok_bind, toSize_layer hr.1 hr.2, Res.ok_bind,
    if_neg (by
      rintro (k | k | k | k)
      · omega
      · omega
      · exact h.radius.ne' k
      · exact h.longitude.ne' k),
    e1, e2, toSize_nat (by have := h.nr1; omega), Res.ok_bind, toSize_nat (by have := h.nz1; omega), Res.ok_bind,
    i1, Res.ok_bind, i2, Res.ok_bind, u _ h.dr1, u _ h.dz1]

/-- **The configured geometry is used.**  With whole positive numbers of cells and domains and layers given as fractions
between zero and one the volume has the configured size, the configured number of cells of the right size, also when
counted back from the sizes, and each absorbing layer has the number of whole cells of the configured fraction, never more
than there are. -/
theorem C91_partial (e : Entry K) (nr nz dr dz : Nat) (h : Good e nr nz dr dz) (hl : 0 ≤ e.left ∧ e.left ≤ 1)
    (ho : 0 ≤ e.outer ∧ e.outer ≤ 1) (hr : 0 ≤ e.right ∧ e.right ≤ 1) :
    ∃ w, initGeometry e = .ok w ∧ w.sizeR = e.radius ∧ w.sizeZ = e.longitude ∧ w.nr = nr ∧ w.nz = nz ∧
      w.cellR * nr = e.radius ∧ w.cellZ * nz = e.longitude ∧ w.allR = nr ∧ w.allZ = nz ∧ w.domR = dr ∧ w.domZ = dz ∧
      (w.pmlLeft ≤ nz ∧ (w.pmlLeft : K) ≤ e.left * nz ∧ e.left * nz < w.pmlLeft + 1) ∧
      (w.pmlOuter ≤ nr ∧ (w.pmlOuter : K) ≤ e.outer * nr ∧ e.outer * nr < w.pmlOuter + 1) ∧
      (w.pmlRight ≤ nz ∧ (w.pmlRight : K) ≤ e.right * nz ∧ e.right * nz < w.pmlRight + 1) := by
  have b : ∀ f : K, ∀ n : Nat, 0 ≤ f → f ≤ 1 → n < 2 ^ 63 → f * n < 2 ^ 64 := by
    intro f n f0 f1 hn
    have h1 : (n : K) < 2 ^ 64 := by
      have : n < 2 ^ 64 := by omega
      exact_mod_cast this
    have h0 : (0 : K) ≤ n := Nat.cast_nonneg n
    nlinarith
  have l : ∀ f : K, ∀ n : Nat, 0 ≤ f → f ≤ 1 → ⌊f * n⌋₊ ≤ n ∧ ((⌊f * n⌋₊ : Nat) : K) ≤ f * n ∧ f * n < (⌊f * n⌋₊ : Nat) + 1 := by
    intro f n f0 f1
    have h0 : (0 : K) ≤ n := Nat.cast_nonneg n
    have fn : 0 ≤ f * n := mul_nonneg f0 h0
    refine ⟨?_, Nat.floor_le fn, Nat.lt_floor_add_one _⟩
    have : ((⌊f * n⌋₊ : Nat) : K) ≤ n := le_trans (Nat.floor_le fn) (by nlinarith)
    exact_mod_cast this
  have n1 : (nr : K) ≠ 0 := by exact_mod_cast h.nr0.ne'
  have n2 : (nz : K) ≠ 0 := by exact_mod_cast h.nz0.ne'
  refine ⟨_, init_of_good h ⟨hl.1, b _ _ hl.1 hl.2 h.nz1⟩ ⟨ho.1, b _ _ ho.1 ho.2 h.nr1⟩ ⟨hr.1, b _ _ hr.1 hr.2 h.nz1⟩,
    rfl, rfl, rfl, rfl, ?_, ?_, rfl, rfl, rfl, rfl, l _ _ hl.1 hl.2, l _ _ ho.1 ho.2, l _ _ hr.1 hr.2⟩
  · exact div_mul_cancel₀ _ n1
  · exact div_mul_cancel₀ _ n2

/-- **Layers that do not fit are accepted**: a layer may be wider than the volume, and two layers may overlap. -/
theorem C91_layers_fails (e : Entry K) (nr nz dr dz : Nat) (h : Good e nr nz dr dz) (hl : 0 ≤ e.left ∧ e.left * nz < 2 ^ 64)
    (ho : 0 ≤ e.outer ∧ e.outer * nr < 2 ^ 64) (hr : 0 ≤ e.right ∧ e.right * nz < 2 ^ 64) :
    ∃ w, initGeometry e = .ok w ∧ ((nr : K) + 1 ≤ e.outer * nr → nr < w.pmlOuter) ∧
      ((nz : K) + 2 ≤ (e.left + e.right) * nz → nz < w.pmlLeft + w.pmlRight) := by
  refine ⟨_, init_of_good h hl ho hr, ?_, ?_⟩
  · intro k
    have : nr + 1 ≤ ⌊e.outer * nr⌋₊ := Nat.le_floor (by push_cast; exact k)
    exact this
  · intro k
    have a := Nat.lt_floor_add_one (e.left * nz)
    have b := Nat.lt_floor_add_one (e.right * nz)
    have : ((nz + 2 : Nat) : K) < ((⌊e.left * nz⌋₊ + ⌊e.right * nz⌋₊ + 2 : Nat) : K) := by
      push_cast
      linarith
    have : nz + 2 < ⌊e.left * nz⌋₊ + ⌊e.right * nz⌋₊ + 2 := by exact_mod_cast this
    show nz < ⌊e.left * nz⌋₊ + ⌊e.right * nz⌋₊
    omega

/-- **A negative width of a layer is undefined behaviour**, not an error message. -/
theorem C91_negative_fails (e : Entry K) (nr nz dr dz : Nat) (h : Good e nr nz dr dz) (hl : e.left < 0) :
    initGeometry e = .ub := by
  have hz : (0 : K) < nz := by exact_mod_cast h.nz0
  unfold initGeometry
  rw [h.gridR, h.gridZ, toSize_nat (by have := h.nr1; omega), Res.ok_bind, toSize_nat (by have := h.nz1; omega), Res.ok_bind]
  have : toSize (⌊e.left * nz⌋ : K) = .ub := by
    unfold toSize
    have k : ⌊e.left * nz⌋ ≤ -1 := by
      have : ⌊e.left * nz⌋ < 0 := Int.floor_lt.mpr (by push_cast; exact mul_neg_of_neg_of_pos hl hz)
      omega
    rw [if_pos (Or.inl (by exact_mod_cast k))]
  rw [this]
  rfl

/-- **Fractions of cells are cut off**: a volume with a fraction of a cell configured gets fewer, larger cells. -/
theorem C91_fraction_fails (e : Entry K) (nr nz dr dz : Nat) (x : K) (h : Good e nr nz dr dz) (hl : 0 ≤ e.left ∧ e.left * nz < 2 ^ 64)
    (ho : 0 ≤ e.outer ∧ e.outer * nr < 2 ^ 64) (hr : 0 ≤ e.right ∧ e.right * nz < 2 ^ 64)
    (hx : (nr : K) < x) (hx' : x < nr + 1) :
    ∃ w, initGeometry { e with gridR := x } = .ok w ∧ w.nr = nr ∧ e.radius / x < w.cellR := by
  have k1 : toSize x = .ok nr := by
    have h0 : (0 : K) ≤ nr := Nat.cast_nonneg nr
    have hb : (nr : K) + 1 ≤ 2 ^ 64 := by
      have := h.nr1
      have : nr + 1 ≤ 2 ^ 64 := by omega
      exact_mod_cast this
    rw [toSize_ok (by linarith) (by linarith)]
    congr 1
    rw [Nat.floor_eq_iff (by linarith)]
    exact ⟨hx.le, hx'⟩
  have same : initGeometry { e with gridR := x } = initGeometry e := by
    have k2 : toSize e.gridR = .ok nr := by rw [h.gridR]; exact toSize_nat (by have := h.nr1; omega)
    unfold initGeometry
    dsimp only
    rw [k1, k2]
  rw [same, init_of_good h hl ho hr]
  refine ⟨_, rfl, rfl, ?_⟩
  dsimp only
  have : (0 : K) < nr := by exact_mod_cast h.nr0
  exact div_lt_div_of_pos_left h.radius this hx

/-- **A negative number of domains** is not rejected here; it becomes a huge one. -/
theorem C91_domains_fails (e : Entry K) (nr nz dr dz : Nat) (h : Good e nr nz dr dz) (hl : 0 ≤ e.left ∧ e.left * nz < 2 ^ 64)
    (ho : 0 ≤ e.outer ∧ e.outer * nr < 2 ^ 64) (hr : 0 ≤ e.right ∧ e.right * nz < 2 ^ 64) {n : Nat} (h0 : 0 < n) (h1 : n ≤ 2 ^ 31) :
    ∃ w, initGeometry { e with domR := -(n : K) } = .ok w ∧ w.domR = 2 ^ 64 - n := by
  have base := init_of_good h hl ho hr
  have i1 : toInt (-(n : K)) = .ok (-(n : Int)) := by
    have : (-(n : K)) = ((-(n : Int) : Int) : K) := by push_cast; rfl
    rw [this]
    exact toInt_int (by omega) (by omega)
  have hnr := h.nr0
  have hnz := h.nz0
  have n1 : (nr : K) ≠ 0 := by exact_mod_cast hnr.ne'
  have n2 : (nz : K) ≠ 0 := by exact_mod_cast hnz.ne'
  have e1 : e.radius / (e.radius / nr) = (nr : K) := by
    have := h.radius.ne'
    field_simp
  have e2 : e.longitude / (e.longitude / nz) = (nz : K) := by
    have := h.longitude.ne'
    field_simp
  have i2 : toInt e.domZ = .ok (dz : Int) := by
    have k := h.dz1
    have : e.domZ = ((dz : Int) : K) := by rw [h.domZ]; push_cast; rfl
    rw [this]
    exact toInt_int (by omega) (by omega)
  unfold initGeometry
  dsimp only
  rw [h.gridR, h.gridZ, toSize_nat (by have := h.nr1; omega), Res.ok_bind, toSize_nat (by have := h.nz1; omega), Res.ok_bind,
    toSize_layer hl.1 hl.2, Res.ok_bind, toSize_layer ho.1 ho.2, Res.ok_bind, toSize_layer hr.1 hr.2, Res.ok_bind,
    if_neg (by
      rintro (k | k | k | k)
      · omega
      · omega
      · exact h.radius.ne' k
      · exact h.longitude.ne' k),
    e1, e2, toSize_nat (by have := h.nr1; omega), Res.ok_bind, toSize_nat (by have := h.nz1; omega), Res.ok_bind,
    i1, Res.ok_bind, i2, Res.ok_bind]
  refine ⟨_, rfl, ?_⟩
  show toU64 (-(n : Int)) = 2 ^ 64 - n
  unfold toU64
  omega

/-! ### Examples -/

def exGeo : Entry ℚ := ⟨1/10, 1/2, 64, 256, 1/20, 1/20, 1/10, 2, 4⟩
theorem exGeo_good : Good exGeo 64 256 2 4 := by constructor <;> norm_num [exGeo]
example : ∃ w, initGeometry exGeo = .ok w ∧ w.pmlLeft = 12 ∧ w.pmlOuter = 6 ∧ w.cellZ = 1/512 := by
  refine ⟨_, init_of_good exGeo_good (by norm_num [exGeo]) (by norm_num [exGeo]) (by norm_num [exGeo]), ?_, ?_, ?_⟩
  · show ⌊exGeo.left * (256 : Nat)⌋₊ = 12
    rw [Nat.floor_eq_iff (by norm_num [exGeo])]
    norm_num [exGeo]
  · show ⌊exGeo.outer * (64 : Nat)⌋₊ = 6
    rw [Nat.floor_eq_iff (by norm_num [exGeo])]
    norm_num [exGeo]
  · norm_num [exGeo]
-- `C91_layers_fails`, `C91_negative_fails`, `C91_fraction_fails`
example : Good { exGeo with outer := 2, left := 3/4, right := 3/4 } 64 256 2 4 ∧ ((64 : Nat) : ℚ) + 1 ≤ 2 * (64 : Nat) ∧
    ((256 : Nat) : ℚ) + 2 ≤ (3/4 + 3/4) * (256 : Nat) := by
  refine ⟨by constructor <;> norm_num [exGeo], by norm_num, by norm_num⟩
example : initGeometry { exGeo with left := -1/100 } = .ub :=
  C91_negative_fails _ 64 256 2 4 (by constructor <;> norm_num [exGeo]) (by norm_num)
example : ((64 : Nat) : ℚ) < 64.5 ∧ (64.5 : ℚ) < (64 : Nat) + 1 := by norm_num

end GeoCfg
end Pico
