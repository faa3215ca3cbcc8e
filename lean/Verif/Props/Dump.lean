import Verif.Lemmas.Dump
import Mathlib.Algebra.BigOperators.Intervals

/-! # C88 — what a density probe shows -/

set_option linter.unusedSimpArgs false
set_option linter.unusedVariables false

namespace Pico
namespace Dump

open Maps SMB

/-! ### Specification -/

/-- All particles of a species. -/
def World.all (W : World) (s : Nat) : List VP := (idx2 0 W.nr 0 W.nz).flatMap fun d => W.parts s d.1 d.2

/-- The whole volume as one domain; cells have their numbers in the whole volume. -/
def World.whole (W : World) : Geom ℝ := ⟨W.dr, W.dz, 0, 0, W.offR W.nr, W.offZ W.nz⟩

/-- The density of a species at cell `(X, Y)` of the whole volume. -/
noncomputable def World.trueDens (W : World) (s : Nat) (X Y : Int) : ℝ := dens (W.par s) W.whole (W.all s) X Y

/-- The probe makes the maps of species `s` be prepared. -/
def Prepares (W : World) (s : Nat) (p : Probe) : Prop := lookup W.names p.specie = some s ∧ p.comp ≠ .other

/-! ### Which domains give to a cell -/

theorem share_shift (q : Par) (W : World) (i j : Nat) (p : VP) (x y : Int) :
    share q (W.geo i j) p x y = share q W.whole p (x + W.offR i) (y + W.offZ j) := by
  unfold share densityOf Deposit.δ Grid.single World.geo World.whole depositOf
  dsimp only
  have c1 : ∀ a b : Int, (x = a - (W.offR i : Int) ∧ y = b - (W.offZ j : Int)) ↔
      (x + (W.offR i : Int) = a - ((0 : Nat) : Int) ∧ y + (W.offZ j : Int) = b - ((0 : Nat) : Int)) := by
    intro a b; omega
  have c2 : ∀ a b : Int, (x = a - (W.offR i : Int) + 1 ∧ y = b - (W.offZ j : Int)) ↔
      (x + (W.offR i : Int) = a - ((0 : Nat) : Int) + 1 ∧ y + (W.offZ j : Int) = b - ((0 : Nat) : Int)) := by
    intro a b; omega
  have c3 : ∀ a b : Int, (x = a - (W.offR i : Int) ∧ y = b - (W.offZ j : Int) + 1) ↔
      (x + (W.offR i : Int) = a - ((0 : Nat) : Int) ∧ y + (W.offZ j : Int) = b - ((0 : Nat) : Int) + 1) := by
    intro a b; omega
  have c4 : ∀ a b : Int, (x = a - (W.offR i : Int) + 1 ∧ y = b - (W.offZ j : Int) + 1) ↔
      (x + (W.offR i : Int) = a - ((0 : Nat) : Int) + 1 ∧ y + (W.offZ j : Int) = b - ((0 : Nat) : Int) + 1) := by
    intro a b; omega
  simp only [c1, c2, c3, c4]

theorem dens_shift (q : Par) (W : World) (i j : Nat) (ps : List VP) (x y : Int) :
    dens q (W.geo i j) ps x y = dens q W.whole ps (x + W.offR i) (y + W.offZ j) := by
  unfold dens
  congr 1
  exact List.map_congr_left fun p _ => share_shift q W i j p x y

/-- Share of the particles of one domain at a cell of the whole volume. -/
noncomputable def part (W : World) (s : Nat) (X Y : Int) (d : Nat × Nat) : ℝ :=
  dens (W.par s) W.whole (W.parts s d.1 d.2) X Y

theorem true_sum (W : World) (s : Nat) (X Y : Int) :
    W.trueDens s X Y = ((idx2 0 W.nr 0 W.nz).map (part W s X Y)).sum := by
  unfold World.trueDens World.all
  generalize idx2 0 W.nr 0 W.nz = l
  induction l with
  | nil => rfl
  | cons d l ih =>
    rw [List.flatMap_cons, List.map_cons, List.sum_cons, ← ih]
    unfold part dens
    rw [List.map_append, List.sum_append]

/-- A domain gives only to its own cells and to the first ones behind them. -/
theorem part_zero {W : World} (h : W.Good) {s i j : Nat} (hi : i < W.nr) (hj : j < W.nz) {X Y : Int}
    (hxy : X < W.offR i ∨ W.offR (i+1) < X ∨ Y < W.offZ j ∨ W.offZ (j+1) < Y) : part W s X Y (i, j) = 0 := by
  unfold part dens
  apply List.sum_eq_zero
  intro v hv
  obtain ⟨p, hp, rfl⟩ := List.mem_map.mp hv
  have C := h.inside s i j hi hj p hp
  obtain ⟨a, _, a1, a2, _, _, _, fa⟩ := cellNumber_in (h.geo hi hj).dr (h.geo hi hj).nr C.rlo C.rhi
  obtain ⟨b, _, b1, b2, _, _, _, fb⟩ := cellNumber_in (h.geo hi hj).dz (h.geo hi hj).nz C.zlo C.zhi
  have := h.rows i hi
  have := h.cols j hj
  have e1 : (W.geo i j).dr = W.whole.dr := rfl
  have e2 : (W.geo i j).dz = W.whole.dz := rfl
  have e3 : (W.geo i j).r0 = W.offR i := rfl
  have e4 : (W.geo i j).z0 = W.offZ j := rfl
  have e5 : (W.geo i j).nr = W.offR (i+1) - W.offR i := rfl
  have e6 : (W.geo i j).nz = W.offZ (j+1) - W.offZ j := rfl
  have e7 : W.whole.r0 = 0 := rfl
  have e8 : W.whole.z0 = 0 := rfl
  rw [e1] at fa
  rw [e2] at fb
  rw [e3, e5] at a2
  rw [e4, e6] at b2
  rw [e3] at a1
  rw [e4] at b1
  unfold share densityOf Deposit.δ Grid.single
  dsimp only
  rw [fa, fb, e7, e8, if_neg (by omega), if_neg (by omega), if_neg (by omega), if_neg (by omega)]
  simp

theorem off_mono {off : Nat → Nat} {n : Nat} (h : ∀ i, i < n → off i + 2 ≤ off (i+1)) {a b : Nat} (hab : a ≤ b) (hb : b ≤ n) :
    off a + 2 * (b - a) ≤ off b := by
  induction b with
  | zero => obtain rfl : a = 0 := by omega
            simp
  | succ b ih =>
    rcases Nat.lt_or_ge b a with k | k
    · obtain rfl : a = b + 1 := by omega
      simp
    · have := ih k (by omega)
      have := h b (by omega)
      omega

/-- The true density at a cell of domain `(i, j)`. -/
theorem true_split {W : World} (h : W.Good) {s i j : Nat} (hi : i < W.nr) (hj : j < W.nz) {x y : Int}
    (hx0 : 0 ≤ x) (hx : x < W.xs i) (hy0 : 0 ≤ y) (hy : y < W.ys j) :
    W.trueDens s (x + W.offR i) (y + W.offZ j) =
      part W s (x + W.offR i) (y + W.offZ j) (i, j) +
      (if 0 < i ∧ x = 0 then part W s (x + W.offR i) (y + W.offZ j) (i-1, j) else 0) +
      (if 0 < j ∧ y = 0 then part W s (x + W.offR i) (y + W.offZ j) (i, j-1) else 0) +
      (if (0 < i ∧ x = 0) ∧ 0 < j ∧ y = 0 then part W s (x + W.offR i) (y + W.offZ j) (i-1, j-1) else 0) := by
  have hr := h.rows i hi
  have hc := h.cols j hj
  have hxs : (W.xs i : Int) = W.offR (i+1) - W.offR i := by unfold World.xs; omega
  have hys : (W.ys j : Int) = W.offZ (j+1) - W.offZ j := by unfold World.ys; omega
  set X : Int := x + W.offR i with hX
  set Y : Int := y + W.offZ j with hY
  have rowz : ∀ a b, a < W.nr → b < W.nz → ¬ (a = i ∨ (0 < i ∧ x = 0 ∧ a = i - 1)) → part W s X Y (a, b) = 0 := by
    intro a b ha hb hn
    apply part_zero h ha hb
    rcases Nat.lt_trichotomy a i with k | k | k
    · right; left
      have m := off_mono h.rows (a := a + 1) (b := i) k (by omega)
      by_cases k2 : a = i - 1
      · have : x ≠ 0 := fun k3 => hn (Or.inr ⟨by omega, k3, k2⟩)
        have : a + 1 = i := by omega
        rw [this]
        omega
      · omega
    · exact absurd (Or.inl k) hn
    · left
      have m := off_mono h.rows (a := i + 1) (b := a) k (by omega)
      omega
  have colz : ∀ a b, a < W.nr → b < W.nz → ¬ (b = j ∨ (0 < j ∧ y = 0 ∧ b = j - 1)) → part W s X Y (a, b) = 0 := by
    intro a b ha hb hn
    apply part_zero h ha hb
    rcases Nat.lt_trichotomy b j with k | k | k
    · right; right; right
      have m := off_mono h.cols (a := b + 1) (b := j) k (by omega)
      by_cases k2 : b = j - 1
      · have : y ≠ 0 := fun k3 => hn (Or.inr ⟨by omega, k3, k2⟩)
        have : b + 1 = j := by omega
        rw [this]
        omega
      · omega
    · exact absurd (Or.inl k) hn
    · right; right; left
      have m := off_mono h.cols (a := j + 1) (b := b) k (by omega)
      omega
  have fin : W.trueDens s X Y = ∑ a ∈ Finset.range W.nr, ∑ b ∈ Finset.range W.nz, part W s X Y (a, b) := by
    rw [true_sum, ← List.sum_toFinset _ (nodup_idx2 _ _ _ _), ← Finset.sum_product']
    apply Finset.sum_congr
    · ext p
      simp only [List.mem_toFinset, mem_idx2, Finset.mem_product, Finset.mem_range]
      omega
    · intro p _; rfl
  have inner : ∀ a, a < W.nr → ∑ b ∈ Finset.range W.nz, part W s X Y (a, b) =
      part W s X Y (a, j) + (if 0 < j ∧ y = 0 then part W s X Y (a, j-1) else 0) := by
    intro a ha
    by_cases c : 0 < j ∧ y = 0
    · rw [if_pos c, Finset.sum_eq_add (a := j) (b := j-1) (by omega)]
      · intro b hb ⟨n1, n2⟩
        exact colz a b ha (Finset.mem_range.mp hb) (by omega)
      · intro hn; exact absurd (Finset.mem_range.mpr hj) hn
      · intro hn; exact absurd (Finset.mem_range.mpr (by omega)) hn
    · rw [if_neg c, add_zero, Finset.sum_eq_single j]
      · intro b hb hn
        exact colz a b ha (Finset.mem_range.mp hb) (by rintro (k | ⟨k1, k2, _⟩); exact hn k; exact c ⟨k1, k2⟩)
      · intro hn; exact absurd (Finset.mem_range.mpr hj) hn
  rw [fin, Finset.sum_congr rfl (fun a ha => inner a (Finset.mem_range.mp ha))]
  by_cases c : 0 < i ∧ x = 0
  · rw [Finset.sum_eq_add (a := i) (b := i-1) (by omega)]
    · rw [if_pos c]
      by_cases c2 : 0 < j ∧ y = 0
      · rw [if_pos c2, if_pos c2, if_pos ⟨c, c2⟩]; ring
      · rw [if_neg c2, if_neg c2, if_neg (fun k => c2 k.2)]; ring
    · intro a ha ⟨n1, n2⟩
      have ha' := Finset.mem_range.mp ha
      rw [rowz a j ha' hj (by omega)]
      split
      · rw [rowz a (j-1) ha' (by omega) (by omega), add_zero]
      · rw [add_zero]
    · intro hn; exact absurd (Finset.mem_range.mpr hi) hn
    · intro hn; exact absurd (Finset.mem_range.mpr (by omega)) hn
  · rw [Finset.sum_eq_single i]
    · rw [if_neg c, if_neg (fun k : (0 < i ∧ x = 0) ∧ 0 < j ∧ y = 0 => c k.1)]; ring
    · intro a ha hn
      have ha' := Finset.mem_range.mp ha
      have k : ¬ (a = i ∨ (0 < i ∧ x = 0 ∧ a = i - 1)) := by
        rintro (k | ⟨k1, k2, _⟩)
        · exact hn k
        · exact c ⟨k1, k2⟩
      rw [rowz a j ha' hj k]
      split
      · rw [rowz a (j-1) ha' (by omega) k, add_zero]
      · rw [add_zero]
    · intro hn; exact absurd (Finset.mem_range.mpr hi) hn

/-- The density after the exchanges of a density probe, in cells of the whole volume. -/
theorem stitched_eq {W : World} (h : W.Good) {s i j : Nat} (hi : i < W.nr) (hj : j < W.nz) {x y : Int}
    (hx0 : 0 ≤ x) (hx : x < W.xs i) (hy0 : 0 ≤ y) (hy : y < W.ys j) :
    stitched W s i j x y = part W s (x + W.offR i) (y + W.offZ j) (i, j) +
      (if 0 < i ∧ x = 0 then part W s (x + W.offR i) (y + W.offZ j) (i-1, j) else 0) +
      (if 0 < j ∧ y = 0 then part W s (x + W.offR i) (y + W.offZ j) (i, j-1) else 0) := by
  unfold stitched
  rw [dens_shift, dens_shift, dens_shift]
  congr 1
  · congr 1
    by_cases c : 0 < i ∧ x = 0
    · have r := h.rows (i-1) (by omega)
      have e : i - 1 + 1 = i := by omega
      rw [e] at r
      rw [if_pos ⟨c.1, by omega⟩, if_pos c]
      have : (W.xs (i-1) : Int) + x + W.offR (i-1) = x + W.offR i := by unfold World.xs; rw [e]; omega
      rw [this]
      rfl
    · rw [if_neg c]
      by_cases c2 : 0 < i ∧ x < 2
      · have r := h.rows (i-1) (by omega)
        have e : i - 1 + 1 = i := by omega
        rw [e] at r
        rw [if_pos c2]
        have : (W.xs (i-1) : Int) + x + W.offR (i-1) = x + W.offR i := by unfold World.xs; rw [e]; omega
        rw [this]
        exact part_zero h (i := i-1) (j := j) (by omega) hj (Or.inr (Or.inl (by rw [e]; omega)))
      · rw [if_neg c2]
  · by_cases c : 0 < j ∧ y = 0
    · have r := h.cols (j-1) (by omega)
      have e : j - 1 + 1 = j := by omega
      rw [e] at r
      rw [if_pos ⟨c.1, by omega⟩, if_pos c]
      have : (W.ys (j-1) : Int) + y + W.offZ (j-1) = y + W.offZ j := by unfold World.ys; rw [e]; omega
      rw [this]
      rfl
    · rw [if_neg c]
      by_cases c2 : 0 < j ∧ y < 2
      · have r := h.cols (j-1) (by omega)
        have e : j - 1 + 1 = j := by omega
        rw [e] at r
        rw [if_pos c2]
        have : (W.ys (j-1) : Int) + y + W.offZ (j-1) = y + W.offZ j := by unfold World.ys; rw [e]; omega
        rw [this]
        exact part_zero h (i := i) (j := j-1) hi (by omega) (Or.inr (Or.inr (Or.inr (by rw [e]; omega))))
      · rw [if_neg c2]

/-! ### All probes -/

theorem prepare_all {W : World} (h : W.Good) (ps : List Probe) : ∀ S, AllGood W S →
    ∃ S', prepare W ps S = .ok S' ∧ AllGood W S' ∧
      (∀ s, (∀ p ∈ ps, ¬ Prepares W s p) → ∀ i j, i < W.nr → j < W.nz → (S' s i j).density = (S s i j).density) := by
  induction ps with
  | nil => intro S hS; exact ⟨S, rfl, hS, fun _ _ _ _ _ _ => rfl⟩
  | cons p ps ih =>
    intro S hS
    obtain ⟨S1, e1, g1, k1, k2, _, _⟩ := prepareOne_ok h p S hS
    obtain ⟨S2, e2, g2, k3⟩ := ih S1 g1
    refine ⟨S2, by unfold prepare at e2 ⊢; rw [loop_cons, e1, Res.ok_bind, e2], g2, ?_⟩
    intro s hs i j hi hj
    rw [k3 s (fun q hq => hs q (List.mem_cons_of_mem _ hq)) i j hi hj]
    have hp := hs p List.mem_cons_self
    by_cases c : lookup W.names p.specie = some s
    · have : p.comp = .other := by
        by_contra hn
        exact hp ⟨c, hn⟩
      exact k2 s c this i j hi hj
    · rw [k1 s c]

/-- What the last probe that prepares the species leaves. -/
theorem prepare_last {W : World} (h : W.Good) (pre post : List Probe) (q : Probe) (S : Nat → SMaps) (hS : AllGood W S)
    {s : Nat} (hq : Prepares W s q) (hpost : ∀ p ∈ post, ¬ Prepares W s p) :
    ∃ S', prepare W (pre ++ q :: post) S = .ok S' ∧ ∀ i j, i < W.nr → j < W.nz → ∀ x y : Int,
      0 ≤ x → x < W.xs i → 0 ≤ y → y < W.ys j → shown S' s i j x y =
        .ok (if q.comp = .density then stitched W s i j x y else dens (W.par s) (W.geo i j) (W.parts s i j) x y) := by
  obtain ⟨S1, e1, g1, _⟩ := prepare_all h pre S hS
  obtain ⟨S2, e2, g2, _, _, kd, ko⟩ := prepareOne_ok h q S1 g1
  obtain ⟨S3, e3, _, k3⟩ := prepare_all h post S2 g2
  refine ⟨S3, ?_, ?_⟩
  · unfold prepare at e1 e3 ⊢
    rw [loop_append, e1, Res.ok_bind, loop_cons, e2, Res.ok_bind, e3]
  · intro i j hi hj x y hx0 hx hy0 hy
    unfold shown
    rw [k3 s hpost i j hi hj]
    by_cases c : q.comp = .density
    · rw [if_pos c]
      exact kd s hq.1 c i j hi hj x y hx0 hx hy0 hy
    · rw [if_neg c]
      exact ko s hq.1 c hq.2 i j hi hj x y hx0 hx hy0 hy

/-! ### Theorems -/

/-- **Preparing the maps never fails**, whatever the probes. -/
theorem C88_prepares (W : World) (h : W.Good) (ps : List Probe) (S : Nat → SMaps) (hS : AllGood W S) :
    ∃ S', prepare W ps S = .ok S' ∧ AllGood W S' := by
  obtain ⟨S', e, g, _⟩ := prepare_all h ps S hS
  exact ⟨S', e, g⟩

/-- **The density of all particles.**  If the last of the probes that has the maps of the species prepared is a density
probe, then the density probe shows at every cell the density of all particles of the species, whatever the division into
domains, except at the lower left corner cells of the domains that are neither in the first row nor in the first column of
domains. -/
theorem C88_density_partial (W : World) (h : W.Good) (pre post : List Probe) (q : Probe) (S : Nat → SMaps)
    (hS : AllGood W S) {s : Nat} (hq : lookup W.names q.specie = some s) (hd : q.comp = .density)
    (hpost : ∀ p ∈ post, ¬ Prepares W s p) :
    ∃ S', prepare W (pre ++ q :: post) S = .ok S' ∧ ∀ i j, i < W.nr → j < W.nz → ∀ x y : Int,
      0 ≤ x → x < W.xs i → 0 ≤ y → y < W.ys j → ¬ ((0 < i ∧ x = 0) ∧ 0 < j ∧ y = 0) →
      shown S' s i j x y = .ok (W.trueDens s (x + W.offR i) (y + W.offZ j)) := by
  obtain ⟨S', e, v⟩ := prepare_last h pre post q S hS ⟨hq, by rw [hd]; exact fun k => nomatch k⟩ hpost
  refine ⟨S', e, ?_⟩
  intro i j hi hj x y hx0 hx hy0 hy hn
  rw [v i j hi hj x y hx0 hx hy0 hy, if_pos hd, stitched_eq h hi hj hx0 hx hy0 hy, true_split h hi hj hx0 hx hy0 hy,
    if_neg hn, add_zero]

/-- **The corner cells miss a share.**  At the lower left corner cell of a domain the density that the particles of the
diagonal neighbour give there is missing. -/
theorem C88_corner (W : World) (h : W.Good) (pre post : List Probe) (q : Probe) (S : Nat → SMaps)
    (hS : AllGood W S) {s : Nat} (hq : lookup W.names q.specie = some s) (hd : q.comp = .density)
    (hpost : ∀ p ∈ post, ¬ Prepares W s p) :
    ∃ S', prepare W (pre ++ q :: post) S = .ok S' ∧ ∀ i j, i + 1 < W.nr → j + 1 < W.nz →
      shown S' s (i+1) (j+1) 0 0 = .ok (W.trueDens s (W.offR (i+1)) (W.offZ (j+1)) -
        dens (W.par s) W.whole (W.parts s i j) (W.offR (i+1)) (W.offZ (j+1))) := by
  obtain ⟨S', e, v⟩ := prepare_last h pre post q S hS ⟨hq, by rw [hd]; exact fun k => nomatch k⟩ hpost
  refine ⟨S', e, ?_⟩
  intro i j hi hj
  have hx : (0 : Int) < W.xs (i+1) := by have := h.rows (i+1) hi; unfold World.xs; omega
  have hy : (0 : Int) < W.ys (j+1) := by have := h.cols (j+1) hj; unfold World.ys; omega
  have t := true_split h (s := s) hi hj (x := 0) (y := 0) le_rfl hx le_rfl hy
  rw [if_pos (show (0 < i + 1 ∧ (0:Int) = 0) ∧ 0 < j + 1 ∧ (0:Int) = 0 by omega)] at t
  rw [v (i+1) (j+1) hi hj 0 0 le_rfl hx le_rfl hy, if_pos hd, stitched_eq h hi hj le_rfl hx le_rfl hy]
  have e0 : (W.offR (i+1) : Int) = 0 + W.offR (i+1) := by omega
  have e1 : (W.offZ (j+1) : Int) = 0 + W.offZ (j+1) := by omega
  rw [e0, e1, t]
  congr 1
  have : dens (W.par s) W.whole (W.parts s i j) (0 + (W.offR (i+1) : Int)) (0 + (W.offZ (j+1) : Int)) =
      part W s (0 + (W.offR (i+1) : Int)) (0 + (W.offZ (j+1) : Int)) (i + 1 - 1, j + 1 - 1) := rfl
  rw [this]
  ring

/-- **A later probe of another map spoils the density.**  If the last probe that has the maps of the species prepared is
one of temperature, energy or momentum, the density probe shows in every domain only the density of the particles of that
domain. -/
theorem C88_order (W : World) (h : W.Good) (pre post : List Probe) (q : Probe) (S : Nat → SMaps)
    (hS : AllGood W S) {s : Nat} (hq : Prepares W s q) (hd : q.comp ≠ .density)
    (hpost : ∀ p ∈ post, ¬ Prepares W s p) :
    ∃ S', prepare W (pre ++ q :: post) S = .ok S' ∧ ∀ i j, i < W.nr → j < W.nz → ∀ x y : Int,
      0 ≤ x → x < W.xs i → 0 ≤ y → y < W.ys j →
      shown S' s i j x y = .ok (dens (W.par s) W.whole (W.parts s i j) (x + W.offR i) (y + W.offZ j)) := by
  obtain ⟨S', e, v⟩ := prepare_last h pre post q S hS hq hpost
  refine ⟨S', e, ?_⟩
  intro i j hi hj x y hx0 hx hy0 hy
  rw [v i j hi hj x y hx0 hx hy0 hy, if_neg hd, dens_shift]

/-- **Without a division into domains** the density is right whatever the probes and their order. -/
theorem C88_undivided (W : World) (h : W.Good) (h1 : W.nr = 1) (h2 : W.nz = 1) (ps : List Probe) (S : Nat → SMaps)
    (hS : AllGood W S) {s : Nat} (hq : ∃ q ∈ ps, Prepares W s q) :
    ∃ S', prepare W ps S = .ok S' ∧ ∀ x y : Int, 0 ≤ x → x < W.xs 0 → 0 ≤ y → y < W.ys 0 →
      shown S' s 0 0 x y = .ok (W.trueDens s (x + W.offR 0) (y + W.offZ 0)) := by
  have last : ∀ l : List Probe, (∃ q ∈ l, Prepares W s q) →
      ∃ pre q post, l = pre ++ q :: post ∧ Prepares W s q ∧ ∀ p ∈ post, ¬ Prepares W s p := by
    intro l
    induction l with
    | nil => rintro ⟨q, hq, _⟩; cases hq
    | cons a l ih =>
      intro hq
      by_cases c : ∃ q ∈ l, Prepares W s q
      · obtain ⟨pre, q, post, e, k1, k2⟩ := ih c
        exact ⟨a :: pre, q, post, by rw [e]; rfl, k1, k2⟩
      · obtain ⟨q, hq, k⟩ := hq
        rcases List.mem_cons.mp hq with rfl | hq
        · exact ⟨[], q, l, rfl, k, fun p hp hk => c ⟨p, hp, hk⟩⟩
        · exact absurd ⟨q, hq, k⟩ c
  obtain ⟨pre, q, post, rfl, k1, k2⟩ := last ps hq
  obtain ⟨S', e, v⟩ := prepare_last h pre post q S hS k1 k2
  refine ⟨S', e, ?_⟩
  intro x y hx0 hx hy0 hy
  have hi : 0 < W.nr := by omega
  have hj : 0 < W.nz := by omega
  have t := true_split h (s := s) hi hj hx0 hx hy0 hy
  simp only [lt_irrefl, false_and, and_false, if_false, add_zero] at t
  rw [v 0 0 hi hj x y hx0 hx hy0 hy, t]
  split
  · rw [stitched_eq h hi hj hx0 hx hy0 hy]
    simp only [lt_irrefl, false_and, if_false, add_zero]
  · rw [dens_shift]
    rfl

/-! ### The missing shares are positive -/

theorem part_nonneg {W : World} (h : W.Good) (S : Nat → SMaps) (hS : AllGood W S) {s i j : Nat} (hi : i < W.nr)
    (hj : j < W.nz) (hw : ∀ p ∈ W.parts s i j, 0 ≤ p.w) (X Y : Int) : 0 ≤ part W s X Y (i, j) := by
  by_cases c : X < W.offR i ∨ W.offR (i+1) < X ∨ Y < W.offZ j ∨ W.offZ (j+1) < Y
  · rw [part_zero h hi hj c]
  · unfold part dens
    apply List.sum_nonneg
    intro v hv
    obtain ⟨p, hp, rfl⟩ := List.mem_map.mp hv
    have r := h.rows i hi
    have cc := h.cols j hj
    have m := hS s i j hi hj
    have k := share_nonneg (W.par s) (h.par s) (W.geo i j) (h.geo hi hj) _ m.over.density p (h.inside s i j hi hj p hp)
      (hw p hp) (X - W.offR i) (Y - W.offZ j) (by
        have xe : (S s i j).density.xs = W.offR (i+1) - W.offR i := m.over.density.xs
        have ye : (S s i j).density.ys = W.offZ (j+1) - W.offZ j := m.over.density.ys
        have oe := m.density
        unfold Grid.Inside
        rw [xe, ye, oe]
        omega)
    rw [share_shift] at k
    rw [sub_add_cancel, sub_add_cancel] at k
    exact k

/-- A particle inside cell `(a, b)` gives something to the cells `(a+1, b)` and `(a+1, b+1)`. -/
theorem share_pos {W : World} (h : W.Good) {s i j : Nat} (hi : i < W.nr) (hj : j < W.nz) {p : VP}
    (hp : p ∈ W.parts s i j) (hw : 0 < p.w) {a b : Nat} (ra : a * W.dr < p.r) (ra' : p.r < (a + 1) * W.dr)
    (zb : b * W.dz < p.z) (zb' : p.z < (b + 1) * W.dz) :
    0 < share (W.par s) W.whole p ((a : Int) + 1) b ∧ 0 < share (W.par s) W.whole p ((a : Int) + 1) ((b : Int) + 1) := by
  have C := h.inside s i j hi hj p hp
  have hdr := h.dr
  have hdz := h.dz
  have hpi := (h.par s).pi
  obtain ⟨a', _, _, a2, ua, _, _, fa⟩ := cellNumber_in (h.geo hi hj).dr (h.geo hi hj).nr C.rlo C.rhi
  obtain ⟨b', _, _, b2, ub, _, _, fb⟩ := cellNumber_in (h.geo hi hj).dz (h.geo hi hj).nz C.zlo C.zhi
  have e1 : (W.geo i j).dr = W.dr := rfl
  have e2 : (W.geo i j).dz = W.dz := rfl
  rw [e1] at fa
  rw [e2] at fb
  have fa' : ⌊p.r / W.dr⌋ = (a : Int) := by
    rw [Int.floor_eq_iff]
    push_cast
    exact ⟨(le_div_iff₀ hdr).mpr ra.le, (div_lt_iff₀ hdr).mpr ra'⟩
  have fb' : ⌊p.z / W.dz⌋ = (b : Int) := by
    rw [Int.floor_eq_iff]
    push_cast
    exact ⟨(le_div_iff₀ hdz).mpr zb.le, (div_lt_iff₀ hdz).mpr zb'⟩
  obtain rfl : a' = a := by omega
  obtain rfl : b' = b := by omega
  have hr : 0 ≤ p.r := le_trans (by positivity) ra.le
  obtain ⟨_, d10, _, d11⟩ := depositOf_eq (W.par s).pi (W.geo i j) hpi (h.geo hi hj) (z := p.z) hr p.w (k := b')
    (by rw [e1]; exact ra.le) (by rw [e1]; exact ra')
  rw [e1, e2] at d10 d11
  have rs := (rad_nonneg hdr hr ra.le ra').2.2
  have rh : 0 < radHigh W.dr p.r a' := by
    unfold radHigh
    have k1 : ((a' : ℝ) + 1/2) * W.dr < p.r + 1/2 * W.dr := by linarith
    have k2 : 0 < ((a' : ℝ) + 1/2) * W.dr := by positivity
    nlinarith
  have dh := divHigh_pos (pi := (W.par s).pi) hpi hdr hdz a'
  have q1 : 0 < ((b' : ℝ) + 1) * W.dz - p.z := by linarith
  have q2 : 0 < p.z - b' * W.dz := by linarith
  have dd : depositOf (W.par s).pi W.whole p.r p.z p.w a' b' = depositOf (W.par s).pi (W.geo i j) p.r p.z p.w a' b' := rfl
  have f1 : ⌊p.r / W.whole.dr⌋ = (a' : Int) := fa
  have f2 : ⌊p.z / W.whole.dz⌋ = (b' : Int) := fb
  have z1 : W.whole.r0 = 0 := rfl
  have z2 : W.whole.z0 = 0 := rfl
  unfold share densityOf Deposit.δ Grid.single
  dsimp only
  rw [f1, f2, z1, z2, ua, ub, dd]
  constructor
  · rw [if_neg (by omega), if_pos (by omega), if_neg (by omega), if_neg (by omega), d10]
    simp only [zero_add, add_zero]
    positivity
  · rw [if_neg (by omega), if_neg (by omega), if_neg (by omega), if_pos (by omega), d11]
    simp only [zero_add, add_zero]
    positivity

theorem part_pos {W : World} (h : W.Good) (S : Nat → SMaps) (hS : AllGood W S) {s i j : Nat} (hi : i < W.nr)
    (hj : j < W.nz) (hw : ∀ p ∈ W.parts s i j, 0 ≤ p.w) {p : VP}
    (hp : p ∈ W.parts s i j) (wp : 0 < p.w) {a b : Nat} (ra : a * W.dr < p.r) (ra' : p.r < (a + 1) * W.dr)
    (zb : b * W.dz < p.z) (zb' : p.z < (b + 1) * W.dz) :
    0 < part W s ((a : Int) + 1) b (i, j) ∧ 0 < part W s ((a : Int) + 1) ((b : Int) + 1) (i, j) := by
  have hs := share_pos h hi hj hp wp ra ra' zb zb'
  have k : ∀ X Y : Int, 0 < share (W.par s) W.whole p X Y → 0 < part W s X Y (i, j) := by
    intro X Y hk
    refine lt_of_lt_of_le hk ?_
    unfold part dens
    refine List.single_le_sum ?_ _ (List.mem_map.mpr ⟨p, hp, rfl⟩)
    intro v hv
    obtain ⟨p', hp', rfl⟩ := List.mem_map.mp hv
    have W1 : World := { W with parts := fun _ _ _ => [] }
    by_cases c : X < W.offR i ∨ W.offR (i+1) < X ∨ Y < W.offZ j ∨ W.offZ (j+1) < Y
    · -- the particle gives nothing there
      let W' : World := { W with parts := fun _ a b => if a = i ∧ b = j then [p'] else [] }
      have h' : W'.Good := ⟨h.dr, h.dz, h.rows, h.cols, h.fitR, h.fitZ, h.par, by
        intro s' a b ha hb q hq
        have : q ∈ (if a = i ∧ b = j then [p'] else []) := hq
        split at this
        · next e =>
          rw [List.mem_singleton.mp this, e.1, e.2]
          exact h.inside s i j hi hj p' hp'
        · cases this⟩
      have z := part_zero h' (s := s) hi hj c
      unfold part dens at z
      have e : W'.parts s (i, j).1 (i, j).2 = [p'] := if_pos ⟨rfl, rfl⟩
      rw [e] at z
      simp only [List.map_cons, List.map_nil, List.sum_cons, List.sum_nil, add_zero] at z
      exact le_of_eq z.symm
    · have r := h.rows i hi
      have cc := h.cols j hj
      have m := hS s i j hi hj
      have k := share_nonneg (W.par s) (h.par s) (W.geo i j) (h.geo hi hj) _ m.over.density p'
        (h.inside s i j hi hj p' hp') (hw p' hp') (X - W.offR i) (Y - W.offZ j) (by
          have xe : (S s i j).density.xs = W.offR (i+1) - W.offR i := m.over.density.xs
          have ye : (S s i j).density.ys = W.offZ (j+1) - W.offZ j := m.over.density.ys
          have oe := m.density
          unfold Grid.Inside
          rw [xe, ye, oe]
          omega)
      rw [share_shift] at k
      rw [sub_add_cancel, sub_add_cancel] at k
      exact k
  exact ⟨k _ _ hs.1, k _ _ hs.2⟩

/-- **Too little at the corners.**  One particle in the last cell of a domain is enough: the density shown at the corner
cell of the next domain across the corner is smaller than the density. -/
theorem C88_corner_fails (W : World) (h : W.Good) (pre post : List Probe) (q : Probe) (S : Nat → SMaps)
    (hS : AllGood W S) {s : Nat} (hq : lookup W.names q.specie = some s) (hd : q.comp = .density)
    (hpost : ∀ p ∈ post, ¬ Prepares W s p) {i j : Nat} (hi : i + 1 < W.nr) (hj : j + 1 < W.nz)
    (hw : ∀ p ∈ W.parts s i j, 0 ≤ p.w) {p : VP} (hp : p ∈ W.parts s i j) (wp : 0 < p.w)
    (ra : ((W.offR (i+1) - 1 : Nat) : ℝ) * W.dr < p.r) (zb : ((W.offZ (j+1) - 1 : Nat) : ℝ) * W.dz < p.z) :
    ∃ S' v, prepare W (pre ++ q :: post) S = .ok S' ∧ shown S' s (i+1) (j+1) 0 0 = .ok v ∧
      v < W.trueDens s (W.offR (i+1)) (W.offZ (j+1)) := by
  obtain ⟨S', e, v⟩ := C88_corner W h pre post q S hS hq hd hpost
  refine ⟨S', _, e, v i j hi hj, ?_⟩
  have C := h.inside s i j (by omega) (by omega) p hp
  have r := h.rows i (by omega)
  have c := h.cols j (by omega)
  have a1 : p.r < (((W.offR (i+1) - 1 : Nat) : ℝ) + 1) * W.dr := by
    have := C.rhi
    have e1 : (W.geo i j).r0 + (W.geo i j).nr = (W.offR (i+1) - 1) + 1 := by simp only [World.geo]; omega
    rw [e1] at this
    push_cast at this ⊢
    exact this
  have b1 : p.z < (((W.offZ (j+1) - 1 : Nat) : ℝ) + 1) * W.dz := by
    have := C.zhi
    have e1 : (W.geo i j).z0 + (W.geo i j).nz = (W.offZ (j+1) - 1) + 1 := by simp only [World.geo]; omega
    rw [e1] at this
    push_cast at this ⊢
    exact this
  have k := (part_pos h S hS (by omega) (by omega) hw hp wp ra a1 zb b1).2
  have e1 : ((W.offR (i+1) - 1 : Nat) : Int) + 1 = W.offR (i+1) := by omega
  have e2 : ((W.offZ (j+1) - 1 : Nat) : Int) + 1 = W.offZ (j+1) := by omega
  rw [e1, e2] at k
  unfold part at k
  linarith

/-- **Too little at the borders.**  With a temperature, energy or momentum probe of the species after the density probe,
one particle in the last row of a domain is enough: the density shown at the next cell, in the first row of the next
domain, is smaller than the density. -/
theorem C88_order_fails (W : World) (h : W.Good) (pre post : List Probe) (q : Probe) (S : Nat → SMaps)
    (hS : AllGood W S) {s : Nat} (hq : Prepares W s q) (hd : q.comp ≠ .density)
    (hpost : ∀ p ∈ post, ¬ Prepares W s p) (hw : ∀ i j, i < W.nr → j < W.nz → ∀ p ∈ W.parts s i j, 0 ≤ p.w)
    {i j y : Nat} (hi : i + 1 < W.nr) (hj : j < W.nz) (hy : y < W.ys j)
    {p : VP} (hp : p ∈ W.parts s i j) (wp : 0 < p.w)
    (ra : ((W.offR (i+1) - 1 : Nat) : ℝ) * W.dr < p.r) (zb : ((W.offZ j + y : Nat) : ℝ) * W.dz < p.z)
    (zb' : p.z < ((W.offZ j + y : Nat) + 1 : ℝ) * W.dz) :
    ∃ S' v, prepare W (pre ++ q :: post) S = .ok S' ∧ shown S' s (i+1) j 0 y = .ok v ∧
      v < W.trueDens s (W.offR (i+1)) (W.offZ j + y) := by
  obtain ⟨S', e, v⟩ := C88_order W h pre post q S hS hq hd hpost
  have hx : (0 : Int) < W.xs (i+1) := by have := h.rows (i+1) hi; unfold World.xs; omega
  refine ⟨S', _, e, v (i+1) j hi hj 0 y le_rfl hx (by omega) (by omega), ?_⟩
  have t := true_split h (s := s) hi hj (x := 0) (y := (y : Int)) le_rfl hx (by omega) (by omega)
  have C := h.inside s i j (by omega) hj p hp
  have r := h.rows i (by omega)
  have a1 : p.r < (((W.offR (i+1) - 1 : Nat) : ℝ) + 1) * W.dr := by
    have := C.rhi
    have e1 : (W.geo i j).r0 + (W.geo i j).nr = (W.offR (i+1) - 1) + 1 := by simp only [World.geo]; omega
    rw [e1] at this
    push_cast at this ⊢
    exact this
  have k := (part_pos h S hS (by omega) hj (hw i j (by omega) hj) hp wp ra a1 zb zb').1
  have e1 : ((W.offR (i+1) - 1 : Nat) : Int) + 1 = 0 + W.offR (i+1) := by omega
  have e2 : ((W.offZ j + y : Nat) : Int) = (y : Int) + W.offZ j := by push_cast; ring
  rw [e1, e2] at k
  have n1 : 0 ≤ (if 0 < j ∧ (y : Int) = 0 then part W s (0 + (W.offR (i+1) : Int)) ((y : Int) + W.offZ j) (i+1, j-1) else 0) := by
    split
    · exact part_nonneg h S hS hi (by omega) (hw (i+1) (j-1) hi (by omega)) _ _
    · exact le_rfl
  have n2 : 0 ≤ (if (0 < i + 1 ∧ (0 : Int) = 0) ∧ 0 < j ∧ (y : Int) = 0 then
      part W s (0 + (W.offR (i+1) : Int)) ((y : Int) + W.offZ j) (i+1-1, j-1) else 0) := by
    split
    · exact part_nonneg h S hS (by omega) (by omega) (hw (i+1-1) (j-1) (by omega) (by omega)) _ _
    · exact le_rfl
  rw [if_pos (show 0 < i + 1 ∧ (0 : Int) = 0 by omega)] at t
  have e3 : (W.offR (i+1) : Int) = 0 + W.offR (i+1) := by omega
  have e4 : (W.offZ j : Int) + y = y + W.offZ j := by omega
  have t' : W.trueDens s (W.offR (i+1)) ((W.offZ j : Int) + y) = W.trueDens s (0 + W.offR (i+1)) (y + W.offZ j) := by
    rw [← e3, e4]
  rw [t', t]
  have e5 : dens (W.par s) W.whole (W.parts s (i+1) j) (0 + (W.offR (i+1) : Int)) ((y : Int) + W.offZ j) =
      part W s (0 + (W.offR (i+1) : Int)) ((y : Int) + W.offZ j) (i+1, j) := rfl
  rw [e5]
  have e6 : i + 1 - 1 = i := rfl
  rw [e6] at n2 ⊢
  linarith

/-! ### Examples -/

noncomputable def exGrid : Grid ℝ := ⟨2, 2, 2, fun _ _ => 7⟩
noncomputable def exMaps : St :=
  ⟨exGrid, exGrid, ⟨exGrid, exGrid, exGrid⟩, ⟨exGrid, exGrid, exGrid⟩, exGrid, exGrid⟩
/-- Two by two domains of two by two cells; one electron in the last cell of the first domain, one in the last domain. -/
noncomputable def exWorld : World where
  nr := 2
  nz := 2
  dr := 1
  dz := 1
  offR := fun i => 2 * i
  offZ := fun j => 2 * j
  names := [['e']]
  par := fun _ => exQ
  parts := fun s i j => if i = 0 ∧ j = 0 then [⟨3/2, 3/2, 1, 1, 2, 1⟩] else if i = 1 ∧ j = 1 then [⟨9/4, 5/2, 2, 0, 0, 1⟩] else []

theorem exWorld_good : exWorld.Good := by
  refine ⟨by norm_num [exWorld], by norm_num [exWorld], fun i _ => by simp only [exWorld]; omega,
    fun j _ => by simp only [exWorld]; omega, ?_, ?_, fun _ => exQ_good, ?_⟩
  · intro i hi
    simp only [exWorld] at hi ⊢
    omega
  · intro i hi
    simp only [exWorld] at hi ⊢
    omega
  · intro s i j hi hj p hp
    simp only [exWorld] at hp
    split at hp
    · next e =>
      rw [List.mem_singleton.mp hp, e.1, e.2]
      constructor <;> norm_num [World.geo, exWorld]
    · split at hp
      · next e =>
        rw [List.mem_singleton.mp hp, e.1, e.2]
        constructor <;> norm_num [World.geo, exWorld]
      · cases hp

theorem exMaps_good : AllGood exWorld fun _ _ _ => exMaps := by
  intro s i j hi hj
  have g : (exWorld.geo i j).MapOf exGrid := by
    refine ⟨by constructor <;> norm_num [exGrid, Grid.xr, Grid.yr], ?_, ?_, by norm_num [exGrid]⟩
    · simp only [exGrid, World.geo, exWorld]
      omega
    · simp only [exGrid, World.geo, exWorld]
      omega
  exact ⟨⟨g, g, ⟨g, g, g⟩, ⟨g, g, g⟩, g, g⟩, rfl, rfl, rfl, rfl, rfl, rfl⟩

-- the hypotheses of `C88_density_partial` and `C88_corner_fails`: temperature, then density
example : ∃ S' v, prepare exWorld [⟨.temperature, ['e']⟩, ⟨.density, ['e']⟩, ⟨.energy, ['x']⟩] (fun _ _ _ => exMaps) = .ok S' ∧
    shown S' 0 1 1 0 0 = .ok v ∧ v < exWorld.trueDens 0 (exWorld.offR 1) (exWorld.offZ 1) := by
  refine C88_corner_fails exWorld exWorld_good [⟨.temperature, ['e']⟩] [⟨.energy, ['x']⟩] ⟨.density, ['e']⟩ _ exMaps_good
    (s := 0) (by decide) rfl ?_ (i := 0) (j := 0) (by decide) (by decide) ?_ (p := ⟨3/2, 3/2, 1, 1, 2, 1⟩) ?_ ?_ ?_ ?_
  · intro p hp
    rw [List.mem_singleton.mp hp]
    exact fun k => absurd k.1 (by decide)
  · intro p hp
    have hp' : p ∈ [(⟨3/2, 3/2, 1, 1, 2, 1⟩ : VP)] := hp
    rw [List.mem_singleton.mp hp']
    norm_num
  · exact List.mem_singleton.mpr rfl
  all_goals norm_num [exWorld]

-- the hypotheses of `C88_order_fails`: density, then temperature
example : ∃ S' v, prepare exWorld [⟨.density, ['e']⟩, ⟨.temperature, ['e']⟩] (fun _ _ _ => exMaps) = .ok S' ∧
    shown S' 0 1 0 0 (1 : Nat) = .ok v ∧ v < exWorld.trueDens 0 (exWorld.offR 1) (exWorld.offZ 0 + (1 : Nat)) := by
  refine C88_order_fails exWorld exWorld_good [⟨.density, ['e']⟩] [] ⟨.temperature, ['e']⟩ _ exMaps_good
    (s := 0) ⟨by decide, by decide⟩ (by decide) (by intro p hp; cases hp) ?_ (i := 0) (j := 0) (y := 1) (by decide)
    (by decide) (by decide) (p := ⟨3/2, 3/2, 1, 1, 2, 1⟩) ?_ ?_ ?_ ?_ ?_
  · intro i j hi hj p hp
    simp only [exWorld] at hp
    split at hp
    · rw [List.mem_singleton.mp hp]; norm_num
    · split at hp
      · rw [List.mem_singleton.mp hp]; norm_num
      · cases hp
  · exact List.mem_singleton.mpr rfl
  all_goals norm_num [exWorld]

-- of two species of one name a probe finds the last
example : lookup [['e'], ['p'], ['e']] ['e'] = some 2 := by decide

end Dump
end Pico
