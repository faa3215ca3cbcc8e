import Verif.Spec.PicStart
import Verif.Lemmas.PicStart
import Verif.Props.Placement
import Verif.Props.Sampling
import Verif.Props.Fields
import Verif.Props.Particle
import Verif.Lemmas.Dump

/-! What the placement, the velocity distributions and the constructors leave behind. -/

set_option linter.unusedSimpArgs false
set_option linter.unusedVariables false
set_option linter.unusedSectionVars false

namespace Pico
namespace Place

open _root_.Pico.Part

/-- Position of a placed particle: half a cell above the lower corner of the domain up to half a cell beyond its upper corner, or half a cell
before it at a wall. -/
structure Band (g : Geom ℝ) (w : Walls) (p : Part ℝ) : Prop where
  r1 : (g.r0 + 1 / 2) * g.dr ≤ p.posR
  r2 : p.posR ≤ (g.r0 + g.nr + (if w.r1 then -1 / 2 else 1 / 2)) * g.dr
  z1 : (g.z0 + 1 / 2) * g.dz ≤ p.posZ
  z2 : p.posZ ≤ (g.z0 + g.nz + (if w.z1 then -1 / 2 else 1 / 2)) * g.dz
  phi : p.posPhi = 0

/-- `set_weight` only changes weights. -/
theorem weight_only {pi : ℝ} {g : Geom ℝ} {w : Walls} {a : Area} {d0 d1 : ℝ} {n : Nat} {qs ps : List (Part ℝ)}
    (h : setWeight pi g w a d0 d1 n qs = .ok ps) : ps.length = qs.length ∧ ∀ p ∈ ps, ∃ q ∈ qs, ∃ x, p = { q with weight := x } := by
  unfold setWeight at h
  split_ifs at h with c1 c2
  · cases h
    rw [List.isEmpty_iff] at c1
    subst c1
    exact ⟨rfl, by simp⟩
  · cases h
    refine ⟨by simp, fun p hp => ?_⟩
    obtain ⟨q, hq, rfl⟩ := List.mem_map.mp hp
    exact ⟨q, hq, _, rfl⟩

theorem band_weight {pi : ℝ} {g : Geom ℝ} {w : Walls} {a : Area} {d0 d1 : ℝ} {n : Nat} {qs ps : List (Part ℝ)}
    (h : setWeight pi g w a d0 d1 n qs = .ok ps) (b : ∀ q ∈ qs, Band g w q) : ∀ p ∈ ps, Band g w p := by
  intro p hp
  obtain ⟨q, hq, x, rfl⟩ := (weight_only h).2 p hp
  obtain ⟨b1, b2, b3, b4, b5⟩ := b q hq
  exact ⟨b1, b2, b3, b4, b5⟩

theorem nearest_small {number : Nat} (h : number < 2 ^ 32) {what : ℝ} {n : Nat} (hn : NearestDivide number what n) : n < 2 ^ 32 := by
  unfold NearestDivide at hn
  induction hn with
  | done _ => exact h
  | step _ _ ih => exact ih (Nat.mod_lt _ (by norm_num))

theorem flat_unit {n : Nat} (h : n < 2 ^ 31) {ur uz : Nat → ℝ} (hf : FlatNumbers n ur uz) :
    ∃ ur' uz' : Nat → ℝ, (∀ i, 0 ≤ ur' i ∧ ur' i < 1) ∧ (∀ i, 0 ≤ uz' i ∧ uz' i < 1) ∧ ∀ i < n, ur i = ur' i ∧ uz i = uz' i := by
  obtain ⟨ur', uz', hf', a, b⟩ := flat_numbers n h
  refine ⟨ur', uz', a, b, fun i hi => ?_⟩
  have e1 := (Rand.C33_value (K := ℝ) (b := 13) (by norm_num) i (by omega)).2.1
  have e2 := (Rand.C33_value (K := ℝ) (b := 11) (by norm_num) (n - 1 - i) (by omega)).2.1
  refine ⟨(e1 _ ?_).trans (e1 _ ?_).symm, (e2 _ ?_).trans (e2 _ ?_).symm⟩
  · exact_mod_cast (hf i hi).1
  · exact_mod_cast (hf' i hi).1
  · exact_mod_cast (hf i hi).2
  · exact_mod_cast (hf' i hi).2

theorem random_congr {id : Nat} {mnzl : ℝ} {g : Geom ℝ} {w : Walls} {a : Area} {d0 d1 : ℝ} {n : Nat} {ur uz ur' uz' : Nat → ℝ}
    (h : ∀ i < n, ur i = ur' i ∧ uz i = uz' i) : random id mnzl g w a d0 d1 n ur uz = random id mnzl g w a d0 d1 n ur' uz' := by
  unfold random
  refine List.map_congr_left fun i hi => ?_
  obtain ⟨a, b⟩ := h i (List.mem_range.mp hi)
  rw [a, b]

section
variable {mnzl : ℝ} (hm : 0 < mnzl) {g : Geom ℝ} (G : g.Good) (w : Walls)
include hm G

theorem band_random (hm1 : mnzl < 1) (hn1 : 1 ≤ g.nr) (hn2 : 1 ≤ g.nz) {d0 d1 : ℝ} (h0 : 0 ≤ d0) (h1 : 0 ≤ d1) (id n : Nat) {ur uz : Nat → ℝ}
    (hur : ∀ i, 0 ≤ ur i ∧ ur i < 1) (huz : ∀ i, 0 ≤ uz i ∧ uz i < 1) : ∀ p ∈ random id mnzl g w (whole g) d0 d1 n ur uz, Band g w p := by
  intro p hp
  obtain ⟨a1, a2, a3, a4, a5, _⟩ := (C32_random_partial hm hm1 G w hn1 hn2 d0 d1 h0 h1 id n ur uz hur huz).2 p hp
  exact ⟨a1, a2, a3, a4, a5⟩

theorem band_centered (hm1 : mnzl < g.dr / 2) (hm2 : mnzl < g.dz / 2) (id : Nat) {n : Nat} (hn : n < 2 ^ 32) (hn1 : 2 ≤ g.nr) (hn2 : 2 ≤ g.nz)
    {qs : List (Part ℝ)} (h : centered id mnzl g w (whole g) n = .ok qs) : ∀ p ∈ qs, Band g w p := by
  have dr := G.dr
  have dz := G.dz
  obtain ⟨ps, e, _, c, _⟩ := C32_centered_partial hm.le G hm1 hm2 w id n hn hn1 hn2
  obtain rfl := Res.ok.inj (e.symm.trans h)
  intro p hp
  obtain ⟨_, i, k, hi, hk, e1, e2⟩ := c p hp
  have phi : p.posPhi = 0 := by
    unfold centered at h
    dsimp only at h
    split_ifs at h
    rw [← Res.ok.inj h] at hp
    simp only [List.mem_flatMap, List.mem_map] at hp
    obtain ⟨_, _, _, _, _, _, rfl⟩ := hp
    rfl
  have key : ∀ {d x : ℝ} {lo n i : Nat} (b : Bool), 0 < d → mnzl < d / 2 → (i < if b = true then n - 1 else n) → 2 ≤ n → x = (lo + i + 1 / 2) * d + mnzl →
      (lo + 1 / 2) * d ≤ x ∧ x ≤ (lo + n + (if b = true then -1 / 2 else 1 / 2)) * d := by
    intro d x lo n i b hd hmd hin h2 ex
    have i0 : (0 : ℝ) ≤ i := Nat.cast_nonneg i
    cases b with
    | true =>
      simp only [if_true] at hin ⊢
      have : (i : ℝ) + 2 ≤ n := by exact_mod_cast (by omega : i + 2 ≤ n)
      constructor <;> nlinarith
    | false =>
      simp only [Bool.false_eq_true, if_false] at hin ⊢
      have : (i : ℝ) + 1 ≤ n := by exact_mod_cast (by omega : i + 1 ≤ n)
      constructor <;> nlinarith
  obtain ⟨r1, r2⟩ := key w.r1 dr hm1 hi hn1 e1
  obtain ⟨z1, z2⟩ := key w.z1 dz hm2 hk hn2 e2
  exact ⟨r1, r2, z1, z2, phi⟩

theorem band_regular (hn1 : 1 ≤ g.nr) (hn2 : 1 ≤ g.nz) (id : Nat) {n : Nat} (hn : n ≠ 0) {qs : List (Part ℝ)}
    (h : RegularPlacement id mnzl g w (whole g) n qs) : ∀ p ∈ qs, Band g w p := by
  have dr := G.dr
  have dz := G.dz
  have gr := G.nr
  have gz := G.nz
  unfold RegularPlacement at h
  dsimp only at h
  rw [whole_sizes (g := g) (by omega), whole_sizes_r (g := g) (by omega)] at h
  have a1 : (0 : ℝ) < g.nr := by exact_mod_cast (by omega : 0 < g.nr)
  have a2 : (0 : ℝ) < g.nz := by exact_mod_cast (by omega : 0 < g.nz)
  have a3 : (0 : ℝ) < n := by exact_mod_cast (by omega : 0 < n)
  have p1 : 0 < (g.nr : ℝ) * g.dr / Real.sqrt (n * (g.nr * g.dr) / (g.nz * g.dz)) := by positivity
  have p2 : 0 < (g.nz : ℝ) * g.dz / Real.sqrt (n * (g.nz * g.dz) / (g.nr * g.dr)) := by positivity
  obtain ⟨ps, _, u, c⟩ := C32_regular_partial hm (g := g) w (whole g) id p1 p2
  have := u _ h
  subst this
  intro p hp
  obtain ⟨b1, b2, b3, b4⟩ := c p hp
  have phi : p.posPhi = 0 := by
    obtain ⟨_, _, _, _, rfl⟩ := h
    simp only [List.mem_flatMap, List.mem_map] at hp
    obtain ⟨_, _, _, _, rfl⟩ := hp
    rfl
  unfold rSize at b2
  unfold zSize at b4
  rw [whole_sizes_r (g := g) (by omega)] at b2
  rw [whole_sizes (g := g) (by omega)] at b4
  dsimp only [whole] at b1 b2 b3 b4
  refine ⟨b1.le, b2.trans ?_, b3.le, b4.trans ?_, phi⟩
  · split <;> linarith
  · split <;> linarith
end

/-! The number of particles of the regular placement -/

theorem forUp_count {hi h x : ℝ} (hh : 0 < h) {l : List ℝ} (w : ForUp hi h x l) : l = [] ∨ x + ((l.length : ℝ) - 1) * h ≤ hi := by
  induction w with
  | done _ => exact .inl rfl
  | @step x l hx _ ih =>
    right
    rcases ih with rfl | ih
    · simpa using hx
    · rw [List.length_cons]
      push_cast
      linarith

theorem regular_count {mnzl : ℝ} (hm : 0 < mnzl) {g : Geom ℝ} (G : g.Good) (w : Walls) (hn1 : 1 ≤ g.nr) (hn2 : 1 ≤ g.nz) (id : Nat) {n : Nat}
    (hn : n ≠ 0) {qs : List (Part ℝ)} (h : RegularPlacement id mnzl g w (whole g) n qs) : qs.length ≤ n := by
  have dr := G.dr
  have dz := G.dz
  have gr := G.nr
  have gz := G.nz
  unfold RegularPlacement at h
  dsimp only at h
  rw [whole_sizes (g := g) (by omega), whole_sizes_r (g := g) (by omega)] at h
  have a1 : (0 : ℝ) < g.nr := by exact_mod_cast (by omega : 0 < g.nr)
  have a2 : (0 : ℝ) < g.nz := by exact_mod_cast (by omega : 0 < g.nz)
  have a3 : (0 : ℝ) < n := by exact_mod_cast (by omega : 0 < n)
  obtain ⟨rs, zs, h1, h2, rfl⟩ := h
  have len : (rs.flatMap fun x => zs.map fun y => newPart (K := ℝ) id (shiftR g (whole g) x) (shiftZ g (whole g) y)).length = rs.length * zs.length := by
    simp [List.length_flatMap]
  rw [len]
  have R0 : 0 < (g.nr : ℝ) * g.dr := by positivity
  have Z0 : 0 < (g.nz : ℝ) * g.dz := by positivity
  have sr : rSize g w (whole g) ≤ g.nr * g.dr := by
    unfold rSize
    rw [whole_sizes_r (g := g) (by omega)]
    dsimp only
    split <;> linarith
  have sz : zSize g w (whole g) ≤ g.nz * g.dz := by
    unfold zSize
    rw [whole_sizes (g := g) (by omega)]
    dsimp only
    split <;> linarith
  generalize (g.nr : ℝ) * g.dr = R at *
  generalize (g.nz : ℝ) * g.dz = Z at *
  have q1 : 0 < Real.sqrt (n * R / Z) := by positivity
  have q2 : 0 < Real.sqrt (n * Z / R) := by positivity
  have key : ∀ {S L s : ℝ} {l : List ℝ}, 0 < s → 0 < L → S ≤ L → ForUp (S - L / s) (L / s) mnzl l → (l.length : ℝ) ≤ s := by
    intro S L s l hs hL hS hf
    rcases forUp_count (by positivity) hf with rfl | c
    · simpa using hs.le
    · have : (l.length : ℝ) * (L / s) ≤ L := by linarith
      rw [mul_div_assoc', div_le_iff₀ hs, mul_comm L] at this
      exact le_of_mul_le_mul_right this hL
  have l1 := key q1 R0 sr h1
  have l2 := key q2 Z0 sz h2
  have prod : Real.sqrt (n * R / Z) * Real.sqrt (n * Z / R) = n := by
    rw [← Real.sqrt_mul (by positivity), show (n : ℝ) * R / Z * (n * Z / R) = n * n by field_simp, Real.sqrt_mul_self a3.le]
  have : (rs.length : ℝ) * zs.length ≤ n := by
    rw [← prod]
    exact mul_le_mul l1 l2 (Nat.cast_nonneg _) q1.le
  exact_mod_cast this

end Place

namespace Vel

theorem invF_end {u : ℝ} (l : lnln u = 2) : invF u = .ub := by
  have hn : ¬ (u = 0 ∨ 2 < lnln u) := by
    rintro (h1 | h1)
    · rw [h1] at l
      unfold lnln at l
      norm_num at l
    · linarith
  show (if u = 0 ∨ 2 < lnln u then _ else if lnln u < -19 then _ else lookup tableF ((lnln u + 19) * (999 / (2 + 19)))) = _
  rw [if_neg hn, l, if_neg (by norm_num), show ((2 : ℝ) + 19) * (999 / (2 + 19)) = (999 : ℕ) by norm_num]
  exact lookup_ub (by positivity) (by rw [Nat.floor_natCast, tableF_len]) (by rw [Nat.floor_natCast, tableF_len]; norm_num)

/-- Whenever the sampling of the classical case has an outcome, there is one energy for each number, between zero and 21 temperatures. -/
theorem classical_ok {T : ℝ} (hT : 0 ≤ T) {l : List ℝ} (hl : ∀ u ∈ l, 0 ≤ u ∧ u < 1) {es : List ℝ} (h : classical T l = .ok es) :
    es.length = l.length ∧ ∀ e ∈ es, 0 ≤ e ∧ e ≤ 21 * T := by
  induction l generalizing es with
  | nil =>
    cases h
    exact ⟨rfl, by simp⟩
  | cons u l ih =>
    rw [classical] at h
    obtain ⟨f, e1, h⟩ := Res.bind_ok h
    obtain ⟨es', e2, h⟩ := Res.bind_ok h
    cases h
    obtain ⟨i1, i2⟩ := ih (fun x hx => hl x (List.mem_cons_of_mem _ hx)) e2
    refine ⟨by simp [i1], fun e he => ?_⟩
    rcases List.mem_cons.mp he with rfl | he
    · obtain ⟨a, b⟩ := hl u List.mem_cons_self
      by_cases c : lnln u = 2
      · rw [invF_end c] at e1
        cases e1
      · obtain ⟨f', g1, g2, g3⟩ := invF_range a b c
        obtain rfl := Res.ok.inj (g1.symm.trans e1)
        exact ⟨by positivity, by nlinarith⟩
    · exact i2 e he

theorem thermal_short (k : Cst) (hm : k.mass ≠ 0) {es : List (Option ℝ)} {rs : List (ℝ × ℝ × ℝ)} {vs : List (Option (Vec3 ℝ))}
    (h : thermal k es rs = .ok vs) : rs.length ≤ es.length := by
  by_contra c
  rw [C78_too_few_energies_fails k hm es rs (by omega)] at h
  cases h

end Vel
end Pico
