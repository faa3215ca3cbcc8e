import Verif.Lemmas.Placement
import Verif.Spec.Placement
import Verif.Spec.Weighting

/-! Properties C31 (weights) and C32 (initial positions). -/

set_option linter.unusedSectionVars false
set_option linter.unusedSimpArgs false
set_option linter.unusedVariables false

namespace Pico
namespace Place

open _root_.Pico.Part

section
variable {K : Type _} [Field K] [LinearOrder K] [IsStrictOrderedRing K] [FloorRing K]

/-! ### C31 -/

/-- The weights always sum up to `N_total`, whatever the number of particles. -/
theorem sum_weights {pi : K} (hp : 0 < pi) {g : Geom K} (hr : 0 < g.dr) (hz : 0 < g.dz) (w : Walls) (a : Area) (d0 d1 : K)
    {amount : Nat} (ha : 1 ≤ amount) {ps : List (Part K)} (hne : ps ≠ []) (h : ∀ p ∈ ps, 0 < p.posR) :
    ∃ qs, setWeight pi g w a d0 d1 amount ps = .ok qs ∧ totalWeight qs = nTotal pi g w a d0 d1 ∧
      qs.map (fun q => { q with weight := 0 }) = ps.map (fun q => { q with weight := 0 }) ∧
      ∃ c : K, ∀ q ∈ qs, q.weight = c * volOf pi g q.posR := by
  have vp := vSum_pos hp hr hz hne h
  have ap : (amount : K) ≠ 0 := by exact_mod_cast (by omega : amount ≠ 0)
  refine ⟨ps.map fun p => { p with weight := nTotal pi g w a d0 d1 / amount * (volOf pi g p.posR / (vSum pi g ps / amount)) },
    ?_, ?_, ?_, nTotal pi g w a d0 d1 / amount / (vSum pi g ps / amount), ?_⟩
  · unfold setWeight
    rw [if_neg (by simpa using hne), if_neg]
    push Not
    exact ⟨by omega, vp.ne'⟩
  · unfold totalWeight
    rw [List.map_map]
    have : (Part.weight ∘ fun p : Part K => { p with weight := nTotal pi g w a d0 d1 / amount * (volOf pi g p.posR / (vSum pi g ps / amount)) }) =
        fun p => (nTotal pi g w a d0 d1 / amount / (vSum pi g ps / amount)) * volOf pi g p.posR := by
      funext p; simp only [Function.comp]; ring
    rw [this, List.sum_map_mul_left, ← vSum_eq]
    field_simp
  · rw [List.map_map]; rfl
  · intro q hq
    obtain ⟨p, _, rfl⟩ := List.mem_map.mp hq
    dsimp only
    ring

theorem whole_sizes {g : Geom K} (hn : g.z0 + g.nz < 2 ^ 32) : usub (whole g).right (whole g).left = g.nz := by
  unfold whole
  dsimp only
  rw [usub_eq (by omega) hn]
  omega
theorem whole_sizes_r {g : Geom K} (hn : g.r0 + g.nr < 2 ^ 32) : usub (whole g).ext (whole g).int = g.nr := by
  unfold whole
  dsimp only
  rw [usub_eq (by omega) hn]
  omega

/-- C31 for domains that do not touch the outer wall or the right wall: the weights sum up to the number of
physical particles in the domain, for every list of macroparticles off the axis. -/
theorem C31_weights_partial {pi : K} (hp : 0 < pi) {g : Geom K} (G : g.Good) (w : Walls) (hw1 : w.r1 = false) (hw2 : w.z1 = false)
    (d0 d1 : K) {amount : Nat} (ha : 1 ≤ amount) {ps : List (Part K)} (hne : ps ≠ []) (h : ∀ p ∈ ps, 0 < p.posR) :
    ∃ qs, setWeight pi g w (whole g) d0 d1 amount ps = .ok qs ∧ totalWeight qs = physAmount d0 d1 (domainVolume pi g) ∧
      qs.map (fun q => { q with weight := 0 }) = ps.map (fun q => { q with weight := 0 }) := by
  obtain ⟨qs, e, t, k, _⟩ := sum_weights hp G.dr G.dz w (whole g) d0 d1 ha hne h
  refine ⟨qs, e, ?_, k⟩
  rw [t]
  unfold nTotal zSize physAmount domainVolume
  rw [whole_sizes (by have := G.nz; omega), hw1, hw2]
  simp only [Bool.false_eq_true, if_false]
  push_cast
  ring

/-- The weights of one domain stand in the ratio of the volumes the particles stand for, in every domain. -/
theorem C31_shares {pi : K} (hp : 0 < pi) {g : Geom K} (G : g.Good) (w : Walls) (a : Area) (d0 d1 : K) {amount : Nat}
    (ha : 1 ≤ amount) {ps : List (Part K)} (hne : ps ≠ []) (h : ∀ p ∈ ps, 0 < p.posR) :
    ∃ qs, setWeight pi g w a d0 d1 amount ps = .ok qs ∧
      ∀ p ∈ qs, ∀ q ∈ qs, ∀ vp vq, OwnVolume pi g p.posR vp → OwnVolume pi g q.posR vq → p.weight * vq = q.weight * vp := by
  obtain ⟨qs, e, _, _, c, hc⟩ := sum_weights hp G.dr G.dz w a d0 d1 ha hne h
  have own : ∀ r v : K, OwnVolume pi g r v → v = volOf pi g r := by
    intro r v hv
    unfold volOf
    by_cases k : g.dr / 2 < r
    · rw [if_pos k, hv.1 k]; ring
    · rw [if_neg k, hv.2 (not_lt.mp k)]; ring
  refine ⟨qs, e, fun p hp' q hq vp vq h1 h2 => ?_⟩
  rw [hc p hp', hc q hq, own _ _ h1, own _ _ h2]
  ring

/-- C31 fails for domains at the outer or the right wall: there the sum is smaller, by a ring of cells and by a
column of cells; only a smaller volume (`nr - 1` resp. `nz - 1` cells) is accounted for. -/
theorem C31_wall_fails {pi : K} (hp : 0 < pi) {g : Geom K} (G : g.Good) (w : Walls) (hw : w.r1 = true ∨ w.z1 = true)
    (hn1 : 1 ≤ g.nr) (hn2 : 1 ≤ g.nz) (d0 d1 : K) (hd : 0 < d0 + d1) {amount : Nat} (ha : 1 ≤ amount) {ps : List (Part K)} (hne : ps ≠ [])
    (h : ∀ p ∈ ps, 0 < p.posR) :
    ∃ qs, setWeight pi g w (whole g) d0 d1 amount ps = .ok qs ∧ totalWeight qs < physAmount d0 d1 (domainVolume pi g) ∧
      totalWeight qs = physAmount d0 d1 (domainVolume pi { g with
        nr := if w.r1 then g.nr - 1 else g.nr, nz := if w.z1 then g.nz - 1 else g.nz }) := by
  obtain ⟨qs, e, t, k, _⟩ := sum_weights hp G.dr G.dz w (whole g) d0 d1 ha hne h
  have dr := G.dr
  have dz := G.dz
  have small : totalWeight qs = physAmount d0 d1 (domainVolume pi { g with
        nr := if w.r1 then g.nr - 1 else g.nr, nz := if w.z1 then g.nz - 1 else g.nz }) := by
    rw [t]
    unfold nTotal zSize physAmount domainVolume
    rw [whole_sizes (by have := G.nz; omega)]
    dsimp only
    by_cases c1 : w.r1 = true <;> by_cases c2 : w.z1 = true <;>
    · simp only [c1, c2, if_true, Bool.false_eq_true, if_false]
      push_cast [Nat.cast_sub hn1, Nat.cast_sub hn2]
      ring
  refine ⟨qs, e, ?_, small⟩
  rw [small]
  unfold physAmount domainVolume
  apply mul_lt_mul_of_pos_left _ (by linarith)
  dsimp only
  have n1 : (1 : K) ≤ g.nr := by exact_mod_cast hn1
  have n2 : (1 : K) ≤ g.nz := by exact_mod_cast hn2
  have r0 : (0 : K) ≤ g.r0 := Nat.cast_nonneg _
  -- areas and lengths
  have ar : ∀ x : K, pi * (((g.r0 + x) * g.dr) ^ 2 - (g.r0 * g.dr) ^ 2) = pi * g.dr ^ 2 * (x * (2 * g.r0 + x)) := by intro x; ring
  have c0 : 0 < pi * g.dr ^ 2 := by positivity
  push_cast
  by_cases c1 : w.r1 = true
  · have s1 : ((g.nr - 1 : Nat) : K) = g.nr - 1 := by rw [Nat.cast_sub hn1]; simp
    have lt : pi * g.dr ^ 2 * ((g.nr - 1) * (2 * g.r0 + (g.nr - 1))) < pi * g.dr ^ 2 * (g.nr * (2 * g.r0 + g.nr)) := by
      apply mul_lt_mul_of_pos_left _ c0
      nlinarith
    have nn : 0 ≤ pi * g.dr ^ 2 * (((g.nr : K) - 1) * (2 * g.r0 + (g.nr - 1))) := by
      have : (0 : K) ≤ g.nr - 1 := by linarith
      positivity
    by_cases c2 : w.z1 = true
    · have s2 : ((g.nz - 1 : Nat) : K) = g.nz - 1 := by rw [Nat.cast_sub hn2]; simp
      simp only [c1, c2, if_true, s1, s2, ar]
      have z0 : 0 ≤ ((g.nz : K) - 1) * g.dz := mul_nonneg (by linarith) dz.le
      have zl : ((g.nz : K) - 1) * g.dz ≤ g.nz * g.dz := by nlinarith
      have zp : 0 < (g.nz : K) * g.dz := by positivity
      calc _ ≤ pi * g.dr ^ 2 * (((g.nr : K) - 1) * (2 * g.r0 + (g.nr - 1))) * (g.nz * g.dz) := mul_le_mul_of_nonneg_left zl nn
        _ < _ := mul_lt_mul_of_pos_right lt zp
    · simp only [c1, c2, if_true, Bool.false_eq_true, if_false, s1, ar]
      exact mul_lt_mul_of_pos_right lt (by positivity)
  · have c2 : w.z1 = true := by rcases hw with h | h; exact absurd h c1; exact h
    have s2 : ((g.nz - 1 : Nat) : K) = g.nz - 1 := by rw [Nat.cast_sub hn2]; simp
    simp only [c1, c2, if_true, Bool.false_eq_true, if_false, s2, ar]
    apply mul_lt_mul_of_pos_left _ (by positivity)
    nlinarith

/-- C31 over the domains of one process: the profiles of the `n` domains of `nz` cells each join, and their amounts
sum up to the amount of the whole profile (cross section `area`). -/
theorem C31_domains (left right dz area : K) (hdz : 0 < dz) (n nz : Nat) (hn : 1 ≤ n) (hnz : 1 ≤ nz) :
    let size : K := (n : K) * nz * dz
    let dens := localDensity left right size dz
    dens 0 = left ∧ dens (n * nz) = right ∧
    ((List.range n).map fun j => physAmount (dens (j * nz)) (dens ((j + 1) * nz)) (area * (nz * dz))).sum =
      physAmount left right (area * size) := by
  intro size dens
  have n0 : (n : K) ≠ 0 := by exact_mod_cast (by omega : n ≠ 0)
  have nz0 : (nz : K) ≠ 0 := by exact_mod_cast (by omega : nz ≠ 0)
  have s0 : size ≠ 0 := by show (n : K) * nz * dz ≠ 0; exact mul_ne_zero (mul_ne_zero n0 nz0) hdz.ne'
  refine ⟨by show localDensity _ _ _ _ _ = _; simp [localDensity], ?_, ?_⟩
  · show left + (right - left) / size * ((n * nz : Nat) : K) * dz = right
    have : (right - left) / size * ((n * nz : Nat) : K) * dz = (right - left) / size * size := by push_cast; ring
    rw [this, div_mul_cancel₀ _ s0]
    ring
  · have e : ∀ j : Nat, physAmount (dens (j * nz)) (dens ((j + 1) * nz)) (area * (nz * dz)) =
        area * (nz * dz) * (left + (right - left) / n * (j + 1 / 2)) := by
      intro j
      show (localDensity _ _ _ _ _ + localDensity _ _ _ _ _) / 2 * _ = _
      unfold localDensity
      show (_ + (right - left) / (n * nz * dz) * _ * _ + (_ + (right - left) / (n * nz * dz) * _ * _)) / 2 * _ = _
      push_cast
      field_simp
      ring
    have key : ∀ m : Nat, ((List.range m).map fun j : Nat => area * (nz * dz) * (left + (right - left) / n * ((j : K) + 1 / 2))).sum =
        area * (nz * dz) * (m * left + (right - left) / n * (m ^ 2 / 2)) := by
      intro m
      induction m with
      | zero => simp
      | succ m ih =>
        rw [List.range_succ, List.map_append, List.sum_append, ih]
        simp only [List.map_cons, List.map_nil, List.sum_cons, List.sum_nil]
        push_cast
        ring
    rw [List.map_congr_left (fun j _ => e j), key]
    show _ = (left + right) / 2 * (area * (n * nz * dz))
    field_simp
    ring

/-- C31 fails with several processes: each process computes the slope of the density from the length of its own
part, so with `procs` processes the density at the right end of the chamber is `left + procs (right - left)`. -/
theorem C31_processes_fails (left right dz : K) (hdz : 0 < dz) (procs nz : Nat) (hp : 2 ≤ procs) (hnz : 1 ≤ nz) (hne : left ≠ right) :
    let ownSize : K := (nz : K) * dz
    localDensity left right ownSize dz (procs * nz) = left + procs * (right - left) ∧
    localDensity left right ownSize dz (procs * nz) ≠ right := by
  intro ownSize
  have nz0 : (nz : K) ≠ 0 := by exact_mod_cast (by omega : nz ≠ 0)
  have e : localDensity left right ownSize dz (procs * nz) = left + procs * (right - left) := by
    show left + (right - left) / (nz * dz) * ((procs * nz : Nat) : K) * dz = _
    push_cast
    field_simp
  refine ⟨e, ?_⟩
  rw [e]
  intro h
  have p1 : (procs : K) - 1 ≠ 0 := by
    have : (2 : K) ≤ procs := by exact_mod_cast hp
    linarith
  have : ((procs : K) - 1) * (right - left) = 0 := by linear_combination h
  rcases mul_eq_zero.mp this with h | h
  · exact p1 h
  · exact hne (by linear_combination -h)

/-! ### C32 -/

/-- C32, mode `centered`: every particle is placed in the middle of a cell of the domain, in all cells the same
number; the number of particles is the configured one only if it is a multiple of the number of cells used. -/
theorem C32_centered_partial {mnzl : K} (hm : 0 ≤ mnzl) {g : Geom K} (G : g.Good) (hm1 : mnzl < g.dr / 2) (hm2 : mnzl < g.dz / 2)
    (w : Walls) (id amount : Nat) (hamount : amount < 2 ^ 32) (hn1 : 2 ≤ g.nr) (hn2 : 2 ≤ g.nz) :
    let nr := if w.r1 then g.nr - 1 else g.nr
    let nz := if w.z1 then g.nz - 1 else g.nz
    ∃ ps, centered id mnzl g w (whole g) amount = .ok ps ∧
      ps.length = nr * nz * (amount / (nr * nz)) ∧
      (∀ p ∈ ps, g.Contains p.posR p.posZ ∧ ∃ i k : Nat, i < nr ∧ k < nz ∧
        p.posR = (g.r0 + i + 1 / 2) * g.dr + mnzl ∧ p.posZ = (g.z0 + k + 1 / 2) * g.dz + mnzl) ∧
      (ps.length = amount ↔ nr * nz ∣ amount) := by
  intro nr nz
  have dr := G.dr
  have dz := G.dz
  have hnr : 1 ≤ nr ∧ nr ≤ g.nr := by show 1 ≤ (if w.r1 then _ else _) ∧ (if w.r1 then _ else _) ≤ _; split <;> omega
  have hnz : 1 ≤ nz ∧ nz ≤ g.nz := by show 1 ≤ (if w.z1 then _ else _) ∧ (if w.z1 then _ else _) ≤ _; split <;> omega
  have e1 : (cellsOf (usub (whole g).ext (whole g).int) w.r1 : K) = nr := by
    rw [whole_sizes_r (by have := G.nr; omega)]
    unfold cellsOf
    show _ = ((if w.r1 then _ else _ : Nat) : K)
    split
    · rw [Nat.cast_sub (by omega)]; simp
    · rfl
  have e2 : (cellsOf (usub (whole g).right (whole g).left) w.z1 : K) = nz := by
    rw [whole_sizes (by have := G.nz; omega)]
    unfold cellsOf
    show _ = ((if w.z1 then _ else _ : Nat) : K)
    split
    · rw [Nat.cast_sub (by omega)]; simp
    · rfl
  have pos : (nr : K) * nz ≠ 0 := by
    have a : (nr : K) ≠ 0 := by exact_mod_cast (by omega : nr ≠ 0)
    have b : (nz : K) ≠ 0 := by exact_mod_cast (by omega : nz ≠ 0)
    exact mul_ne_zero a b
  have per : ⌊(amount : K) / (nr * nz)⌋ = ((amount / (nr * nz) : Nat) : Int) := by
    have : (amount : K) / (nr * nz) = (amount : K) / ((nr * nz : Nat) : K) := by push_cast; rfl
    have np : 0 < nr * nz := Nat.mul_pos hnr.1 hnz.1
    have npk : (0 : K) < ((nr * nz : Nat) : K) := by exact_mod_cast np
    rw [this, Int.floor_eq_iff, le_div_iff₀ npk, div_lt_iff₀ npk]
    have dm := Nat.div_add_mod amount (nr * nz)
    have ml := Nat.mod_lt amount np
    have lo : amount / (nr * nz) * (nr * nz) ≤ amount := Nat.div_mul_le_self _ _
    have hi : amount < (amount / (nr * nz) + 1) * (nr * nz) := by
      rw [Nat.add_mul, Nat.one_mul, Nat.mul_comm]; omega
    exact ⟨by exact_mod_cast lo, by exact_mod_cast hi⟩
  have t : ∀ n : Nat, turns (n : K) = n := fun n => Nat.ceil_natCast n
  have lt32 : amount / (nr * nz) < 2 ^ 32 := lt_of_le_of_lt (Nat.div_le_self _ _) hamount
  have len : ∀ (f : Nat → Nat → Nat → Part K) (a b c : Nat),
      ((List.range a).flatMap fun i => (List.range b).flatMap fun k => (List.range c).map fun j => f i k j).length = a * b * c := by
    intro f a b c
    simp [List.length_flatMap, List.map_const', List.sum_replicate, mul_assoc]
  refine ⟨(List.range nr).flatMap fun (i : Nat) => (List.range nz).flatMap fun (k : Nat) => (List.range (amount / (nr * nz))).map fun _ =>
    newPart id (shiftR g (whole g) (g.dr * i + mnzl)) (shiftZ g (whole g) (g.dz * k + mnzl)), ?_, ?_, ?_, ?_⟩
  · unfold centered
    dsimp only
    rw [e1, e2, if_neg pos, per, if_neg]
    · rw [t, t, Int.toNat_natCast]
    · push Not
      exact ⟨Int.natCast_nonneg _, by exact_mod_cast lt32⟩
  · exact len _ _ _ _
  · intro p hp
    simp only [List.mem_flatMap, List.mem_range, List.mem_map] at hp
    obtain ⟨i, hi, k, hk, j, hj, rfl⟩ := hp
    have pr : shiftR g (whole g) (g.dr * i + mnzl) = (g.r0 + i + 1 / 2) * g.dr + mnzl := by
      unfold shiftR whole; dsimp only; ring
    have pz : shiftZ g (whole g) (g.dz * k + mnzl) = (g.z0 + k + 1 / 2) * g.dz + mnzl := by
      unfold shiftZ whole; dsimp only; ring
    refine ⟨?_, i, k, hi, hk, pr, pz⟩
    show g.Contains (shiftR g (whole g) (g.dr * i + mnzl)) (shiftZ g (whole g) (g.dz * k + mnzl))
    rw [pr, pz]
    have i1 : (i : K) + 1 ≤ g.nr := by exact_mod_cast (by omega : i + 1 ≤ g.nr)
    have k1 : (k : K) + 1 ≤ g.nz := by exact_mod_cast (by omega : k + 1 ≤ g.nz)
    have i0 : (0 : K) ≤ i := Nat.cast_nonneg _
    have k0 : (0 : K) ≤ k := Nat.cast_nonneg _
    have m1 := mul_nonneg i0 dr.le
    have m2 := mul_nonneg k0 dz.le
    have m3 := mul_le_mul_of_nonneg_right i1 dr.le
    have m4 := mul_le_mul_of_nonneg_right k1 dz.le
    constructor <;> push_cast <;> nlinarith
  · rw [len]
    constructor
    · intro h; exact ⟨_, h.symm⟩
    · intro h; exact Nat.mul_div_cancel' h

/-- C32 fails for `centered` next to an outer wall: the number of particles is first made a multiple of the number
of all cells, but the particles are divided among fewer cells; e.g. one particle per cell in a square domain of
`n + 2` by `n + 2` cells gives `(n + 1)^2` of the `(n + 2)^2` particles. -/
theorem C32_centered_count_fails {mnzl : K} (hm : 0 ≤ mnzl) {g : Geom K} (G : g.Good) (hm1 : mnzl < g.dr / 2) (hm2 : mnzl < g.dz / 2)
    (w : Walls) (hw1 : w.r1 = true) (hw2 : w.z1 = true) (id n : Nat) (hn1 : g.nr = n + 4) (hn2 : g.nz = n + 4) (hn : n < 2 ^ 15) :
    ∃ ps, centered id mnzl g w (whole g) ((n + 4) * (n + 4)) = .ok ps ∧ ps.length = (n + 3) * (n + 3) := by
  obtain ⟨ps, e, l, _⟩ := C32_centered_partial hm G hm1 hm2 w id ((n + 4) * (n + 4))
    (lt_of_le_of_lt (Nat.mul_le_mul (show n + 4 ≤ 40000 by omega) (show n + 4 ≤ 40000 by omega)) (by norm_num)) (by omega) (by omega)
  refine ⟨ps, e, ?_⟩
  rw [l, hw1, hw2, hn1, hn2]
  simp only [if_true]
  rw [show n + 4 - 1 = n + 3 by omega]
  have : (n + 4) * (n + 4) / ((n + 3) * (n + 3)) = 1 := by
    apply Nat.div_eq_of_lt_le <;> nlinarith
  rw [this, mul_one]

/-- The number of particles is raised to the next multiple of the number of cells (exact arithmetic), if that is
still an `unsigned int`. -/
theorem C32_nearest {number n : Nat} (hn : 1 ≤ n) (hlt : number + n < 2 ^ 32) :
    ∃ m, NearestDivide number (n : K) m ∧ (∀ m', NearestDivide number (n : K) m' → m' = m) ∧ n ∣ m ∧ number ≤ m ∧ m < number + n := by
  have key : ∀ d : Nat, ∀ r : Nat, r + d < 2 ^ 32 → n ∣ (r + d) → (∀ e, e < d → ¬ n ∣ (r + e)) →
      NearestDivide r (n : K) (r + d) := by
    intro d
    induction d with
    | zero =>
      intro r _ h _
      exact .done (by rw [nearest_step hn]; simpa using h)
    | succ d ih =>
      intro r hr h hmin
      refine .step (by rw [nearest_step hn]; simpa using hmin 0 (by omega)) ?_
      rw [Nat.mod_eq_of_lt (by omega)]
      have := ih (r + 1) (by omega) (by rw [show r + 1 + d = r + (d + 1) by omega]; exact h)
        (fun e he => by rw [show r + 1 + e = r + (e + 1) by omega]; exact hmin (e + 1) (by omega))
      rw [show r + (d + 1) = r + 1 + d by omega]
      exact this
  have ex : ∃ d, d < n ∧ n ∣ (number + d) := by
    rcases Nat.eq_zero_or_pos (number % n) with h | h
    · exact ⟨0, hn, by simpa using Nat.dvd_of_mod_eq_zero h⟩
    · refine ⟨n - number % n, by omega, ?_⟩
      have hl := Nat.mod_lt number hn
      have e : number + (n - number % n) = n * (number / n + 1) := by
        have := Nat.div_add_mod number n
        rw [Nat.mul_add, Nat.mul_one]
        omega
      exact ⟨_, e⟩
  have dec : ∃ d, n ∣ (number + d) := ⟨_, ex.choose_spec.2⟩
  classical
  have fs := Nat.find_spec dec
  have fm : Nat.find dec < n := lt_of_le_of_lt (Nat.find_min' dec ex.choose_spec.2) ex.choose_spec.1
  refine ⟨number + Nat.find dec, key _ number (by omega) fs (fun e he => Nat.find_min dec he), ?_, fs, by omega, by omega⟩
  intro m' hm'
  exact hm'.det (key _ number (by omega) fs (fun e he => Nat.find_min dec he))
end

/-- C32, modes `flat` and `random`: exactly the configured number of particles; each lies in the area shifted by
half a cell: between `1/2` and `n + 1/2` cells behind its lower corner, where `n` is one less at an outer wall. -/
theorem C32_random_partial {mnzl : ℝ} (hm : 0 < mnzl) (hm1 : mnzl < 1) {g : Geom ℝ} (G : g.Good) (w : Walls)
    (hn1 : 1 ≤ g.nr) (hn2 : 1 ≤ g.nz) (d0 d1 : ℝ) (h0 : 0 ≤ d0) (h1 : 0 ≤ d1) (id amount : Nat) (ur uz : Nat → ℝ)
    (hur : ∀ i, 0 ≤ ur i ∧ ur i < 1) (huz : ∀ i, 0 ≤ uz i ∧ uz i < 1) :
    let ps := random id mnzl g w (whole g) d0 d1 amount ur uz
    ps.length = amount ∧ ∀ p ∈ ps,
      (g.r0 + 1 / 2) * g.dr ≤ p.posR ∧ p.posR ≤ (g.r0 + g.nr + (if w.r1 then -1 / 2 else 1 / 2)) * g.dr ∧
      (g.z0 + 1 / 2) * g.dz ≤ p.posZ ∧ p.posZ ≤ (g.z0 + g.nz + (if w.z1 then -1 / 2 else 1 / 2)) * g.dz ∧
      p.posPhi = 0 ∧ p.specieId = id := by
  intro ps
  have dr := G.dr
  have dz := G.dz
  refine ⟨by show (random _ _ _ _ _ _ _ _ _ _).length = _; simp [random], ?_⟩
  intro p hp
  simp only [ps, random, List.mem_map, List.mem_range] at hp
  obtain ⟨i, _, rfl⟩ := hp
  have n1 : (1 : ℝ) ≤ g.nr := by exact_mod_cast hn1
  have n2 : (1 : ℝ) ≤ g.nz := by exact_mod_cast hn2
  have u01 : ∀ x : ℝ, 0 ≤ x ∧ x < 1 → 0 ≤ (if x = 0 then mnzl else x) ∧ (if x = 0 then mnzl else x) ≤ 1 := by
    intro x hx
    split
    · exact ⟨hm.le, hm1.le⟩
    · exact ⟨hx.1, hx.2.le⟩
  obtain ⟨a1, a2⟩ := u01 _ (hur i)
  obtain ⟨b1, b2⟩ := u01 _ (huz i)
  have rs : rSize g w (whole g) = (g.nr + (if w.r1 then -1 else 0)) * g.dr := by
    unfold rSize; rw [whole_sizes_r (by have := G.nr; omega)]; dsimp only; split <;> ring
  have zs : zSize g w (whole g) = (g.nz + (if w.z1 then -1 else 0)) * g.dz := by
    unfold zSize; rw [whole_sizes (by have := G.nz; omega)]; dsimp only; split <;> ring
  have rs0 : 0 ≤ rSize g w (whole g) := by
    rw [rs]; split
    · exact mul_nonneg (by linarith) dr.le
    · exact mul_nonneg (by linarith) dr.le
  have zs0 : 0 ≤ zSize g w (whole g) := by
    rw [zs]; split
    · exact mul_nonneg (by linarith) dz.le
    · exact mul_nonneg (by linarith) dz.le
  have R : ∀ u : ℝ, 0 ≤ u → u ≤ 1 → (g.r0 + 1 / 2) * g.dr ≤ shiftR g (whole g) (rSize g w (whole g) * u) ∧
      shiftR g (whole g) (rSize g w (whole g) * u) ≤ (g.r0 + g.nr + (if w.r1 then -1 / 2 else 1 / 2)) * g.dr := by
    intro u h1 h2
    have x1 := mul_nonneg rs0 h1
    have x2 := mul_le_of_le_one_right rs0 h2
    unfold shiftR
    constructor
    · show _ ≤ _ + (g.r0 : ℝ) * g.dr + _; linarith
    · show _ + (g.r0 : ℝ) * g.dr + _ ≤ _
      generalize rSize g w (whole g) * u = x at x1 x2 ⊢
      rw [rs] at x2
      split at x2 <;> rename_i hw <;> simp only [hw, if_true, Bool.false_eq_true, if_false] <;> linarith
  have Z : ∀ y : ℝ, 0 ≤ y → y ≤ zSize g w (whole g) → (g.z0 + 1 / 2) * g.dz ≤ shiftZ g (whole g) y ∧
      shiftZ g (whole g) y ≤ (g.z0 + g.nz + (if w.z1 then -1 / 2 else 1 / 2)) * g.dz := by
    intro y h1 h2
    unfold shiftZ
    constructor
    · show _ ≤ _ + (g.z0 : ℝ) * g.dz + _; linarith
    · rw [zs] at h2
      show _ + (g.z0 : ℝ) * g.dz + _ ≤ _
      split at h2 <;> rename_i hw <;> simp only [hw, if_true, Bool.false_eq_true, if_false] <;> linarith
  obtain ⟨r1, r2⟩ := R _ a1 a2
  have zr : (g.z0 + 1 / 2) * g.dz ≤ (randomOne id mnzl g w (whole g) d0 d1 (ur i) (uz i)).posZ ∧
      (randomOne id mnzl g w (whole g) d0 d1 (ur i) (uz i)).posZ ≤ (g.z0 + g.nz + (if w.z1 then -1 / 2 else 1 / 2)) * g.dz := by
    unfold randomOne newPart
    dsimp only
    by_cases hd : d0 = d1
    · rw [if_pos hd]
      exact Z _ (mul_nonneg zs0 b1) (mul_le_of_le_one_right zs0 b2)
    · rw [if_neg hd]
      obtain ⟨y1, y2, _⟩ := profile h0 h1 hd b1 b2
      have e : zSize g w (whole g) / (d1 - d0) * (Real.sqrt (d0 ^ 2 + (if uz i = 0 then mnzl else uz i) * (2 * d0 * (d1 - d0) + (d1 - d0) ^ 2)) - d0) =
          zSize g w (whole g) * ((Real.sqrt (d0 ^ 2 + (if uz i = 0 then mnzl else uz i) * (2 * d0 * (d1 - d0) + (d1 - d0) ^ 2)) - d0) / (d1 - d0)) := by ring
      rw [e]
      exact Z _ (mul_nonneg zs0 y1) (mul_le_of_le_one_right zs0 y2)
  exact ⟨r1, r2, zr.1, zr.2, rfl, rfl⟩

/-- The axial positions follow the density profile: the share of the physical particles in front of a macroparticle
equals its random number (for a linear profile from `d0` to `d1` over the length `L` in which particles are placed). -/
theorem C32_profile {mnzl : ℝ} {g : Geom ℝ} (w : Walls) (a : Area) (hL : 0 < zSize g w a) (d0 d1 : ℝ)
    (h0 : 0 ≤ d0) (h1 : 0 ≤ d1) (id : Nat) (ur u : ℝ) (hu : 0 < u) (hu1 : u < 1) :
    let L := zSize g w a
    let x := (randomOne id mnzl g w a d0 d1 ur u).posZ - (a.left + 1 / 2) * g.dz
    d0 * x + (d1 - d0) / L * x ^ 2 / 2 = u * ((d0 + d1) / 2 * L) := by
  intro L x
  have L0 : L ≠ 0 := hL.ne'
  by_cases hd : d0 = d1
  · have e : x = L * u := by
      show (randomOne id mnzl g w a d0 d1 ur u).posZ - _ = _
      unfold randomOne newPart shiftZ
      dsimp only
      rw [if_pos hd, if_neg hu.ne']
      ring
    rw [e, hd]
    ring
  · have e : x = L * ((Real.sqrt (d0 ^ 2 + u * (2 * d0 * (d1 - d0) + (d1 - d0) ^ 2)) - d0) / (d1 - d0)) := by
      show (randomOne id mnzl g w a d0 d1 ur u).posZ - _ = _
      unfold randomOne newPart shiftZ
      dsimp only
      rw [if_neg hd, if_neg hu.ne']
      ring
    obtain ⟨_, _, k⟩ := profile h0 h1 hd hu.le hu1.le
    rw [e]
    generalize (Real.sqrt (d0 ^ 2 + u * (2 * d0 * (d1 - d0) + (d1 - d0) ^ 2)) - d0) / (d1 - d0) = y at k ⊢
    field_simp
    linear_combination 2 * k

/-- The numbers the mode `flat` (the default) draws exist and lie in `[0, 1)`. -/
theorem flat_numbers (amount : Nat) (h : amount < 2 ^ 31) : ∃ ur uz : Nat → ℝ, FlatNumbers amount ur uz ∧
    (∀ i, 0 ≤ ur i ∧ ur i < 1) ∧ (∀ i, 0 ≤ uz i ∧ uz i < 1) := by
  refine ⟨fun i => Rand.behindPoint 13 (Nat.digits 13 i), fun i => Rand.behindPoint 11 (Nat.digits 11 (amount - 1 - i)), ?_, ?_, ?_⟩
  · intro i hi
    exact ⟨by exact_mod_cast (Rand.C33_value (K := ℝ) (b := 13) (by norm_num) i (by omega)).1,
      by exact_mod_cast (Rand.C33_value (K := ℝ) (b := 11) (by norm_num) (amount - 1 - i) (by omega)).1⟩
  · intro i; exact Rand.behind_range (by norm_num) _ (fun d hd => Nat.digits_lt_base (by norm_num) hd)
  · intro i; exact Rand.behind_range (by norm_num) _ (fun d hd => Nat.digits_lt_base (by norm_num) hd)

/-- The mode `flat` for a uniform density: particle `i` stands at the fraction of the radial size whose digits to the base 13
are those of `i` read backwards, and at the fraction of the axial size whose digits to the base 11 are those of
`amount - 1 - i` read backwards; a fraction of zero is replaced by the small number `mnzl`. -/
theorem C32_flat {mnzl : ℝ} {g : Geom ℝ} (G : g.Good) (w : Walls) (d : ℝ) (id amount : Nat) (h : amount < 2 ^ 31) :
    (∃ ur uz, FlatNumbers amount ur uz) ∧ ∀ ur uz, FlatNumbers amount ur uz → ∀ i, i < amount →
      ∃ p, (random id mnzl g w (whole g) d d amount ur uz)[i]? = some p ∧
        p.posR = (g.r0 + 1 / 2) * g.dr + (if w.r1 then (g.nr : ℝ) - 1 else g.nr) * g.dr *
          (if i = 0 then mnzl else Rand.behindPoint 13 (Nat.digits 13 i)) ∧
        p.posZ = (g.z0 + 1 / 2) * g.dz + (if w.z1 then (g.nz : ℝ) - 1 else g.nz) * g.dz *
          (if i + 1 = amount then mnzl else Rand.behindPoint 11 (Nat.digits 11 (amount - 1 - i))) := by
  refine ⟨?_, fun ur uz hf i hi => ?_⟩
  · obtain ⟨ur, uz, hf, _⟩ := flat_numbers amount h
    exact ⟨ur, uz, hf⟩
  · have e1 := (Rand.C33_value (K := ℝ) (b := 13) (by norm_num) i (by omega)).2.1 _ (by exact_mod_cast (hf i hi).1)
    have e2 := (Rand.C33_value (K := ℝ) (b := 11) (by norm_num) (amount - 1 - i) (by omega)).2.1 _ (by exact_mod_cast (hf i hi).2)
    have zero : ∀ (b : Nat), 2 ≤ b → ∀ n, n < 2 ^ 31 → ((Rand.behindPoint b (Nat.digits b n) : ℝ) = 0 ↔ n = 0) := by
      intro b hb n hn
      constructor
      · intro z
        apply Rand.C33_distinct (K := ℝ) hb n 0 hn (by norm_num) 0
        · have := (Rand.C33_value (K := ℝ) hb n hn).1
          rwa [z] at this
        · have := (Rand.C33_value (K := ℝ) hb 0 (by norm_num)).1
          simpa [Rand.behindPoint] using this
      · rintro rfl
        simp [Rand.behindPoint]
    refine ⟨randomOne id mnzl g w (whole g) d d (ur i) (uz i), ?_, ?_, ?_⟩
    · unfold random
      simp [hi]
    · unfold randomOne newPart shiftR rSize
      dsimp only
      rw [whole_sizes_r (by have := G.nr; omega), e1]
      have z := zero 13 (by norm_num) i (by omega)
      by_cases c : i = 0
      · rw [if_pos (z.mpr c), if_pos c]
        unfold whole
        dsimp only
        split_ifs <;> ring
      · rw [if_neg (fun k => c (z.mp k)), if_neg c]
        unfold whole
        dsimp only
        split_ifs <;> ring
    · unfold randomOne newPart shiftZ zSize
      dsimp only
      rw [whole_sizes (by have := G.nz; omega), e2, if_pos rfl]
      have z := zero 11 (by norm_num) (amount - 1 - i) (by omega)
      by_cases c : i + 1 = amount
      · rw [if_pos (z.mpr (by omega)), if_pos c]
        unfold whole
        dsimp only
        split_ifs <;> ring
      · rw [if_neg (fun k : (Rand.behindPoint 11 (Nat.digits 11 (amount - 1 - i)) : ℝ) = 0 => c (by have := z.mp k; omega)), if_neg c]
        unfold whole
        dsimp only
        split_ifs <;> ring

theorem flat_outside {mnzl : ℝ} {g : Geom ℝ} (G : g.Good) (w : Walls) (hw : w.r1 = false) (hn : 1 ≤ g.nr) (d0 d1 : ℝ) (id : Nat) {k : Nat}
    (hk : 2 * g.nr ≤ 13 ^ k) (k0 : 1 ≤ k) (amount : Nat) (ha : 13 ^ k ≤ amount) (ur uz : Nat → ℝ) (hf : FlatNumbers amount ur uz) :
    ∃ p ∈ random id mnzl g w (whole g) d0 d1 amount ur uz, ((g.r0 + g.nr : Nat) : ℝ) * g.dr ≤ p.posR ∧ ¬ g.Contains p.posR p.posZ := by
  have dr := G.dr
  have pk : 13 ≤ 13 ^ k := by
    calc 13 = 13 ^ 1 := by norm_num
      _ ≤ 13 ^ k := Nat.pow_le_pow_right (by norm_num) k0
  have hi : 13 ^ k - 1 < amount := by omega
  have hr := (hf _ hi).1
  have hlt : 13 ^ k - 1 < 2 ^ 31 := by
    have := hr.1.2
    rw [Int.floor_natCast] at this
    exact_mod_cast this
  have e : ur (13 ^ k - 1) = 1 - 1 / (13 : ℝ) ^ k := by
    have := (Rand.C33_value (K := ℝ) (b := 13) (by norm_num) (13 ^ k - 1) hlt).2.1 _ (by exact_mod_cast hr)
    rw [this, behind_pred_pow (by norm_num)]
    norm_num
  refine ⟨_, List.mem_map.mpr ⟨13 ^ k - 1, List.mem_range.mpr hi, rfl⟩, ?_⟩
  have out : ((g.r0 + g.nr : Nat) : ℝ) * g.dr ≤ (randomOne id mnzl g w (whole g) d0 d1 (ur (13 ^ k - 1)) (uz (13 ^ k - 1))).posR := by
    unfold randomOne newPart
    dsimp only
    have p13 : (13 : ℝ) ≤ (13 : ℝ) ^ k := by exact_mod_cast pk
    have ne : ur (13 ^ k - 1) ≠ 0 := by
      rw [e]
      have : 1 / (13 : ℝ) ^ k < 1 := by rw [div_lt_one (by linarith)]; linarith
      linarith
    rw [if_neg ne, e]
    unfold shiftR rSize
    rw [whole_sizes_r (by have := G.nr; omega), hw]
    simp only [Bool.false_eq_true, if_false]
    unfold whole
    dsimp only
    have k2 : (2 : ℝ) * g.nr ≤ (13 : ℝ) ^ k := by exact_mod_cast hk
    have small : (g.nr : ℝ) * (1 / (13 : ℝ) ^ k) ≤ 1 / 2 := by
      rw [mul_one_div, div_le_div_iff₀ (by linarith) (by norm_num)]
      linarith
    have := mul_le_mul_of_nonneg_right small dr.le
    push_cast
    nlinarith
  exact ⟨out, fun c => absurd c.rhi (not_lt.mpr out)⟩

/-- C32 fails for the default mode `flat` in domains without an outer wall: with enough particles some are placed
outside the domain, in the first half cell beyond it. -/
theorem C32_flat_outside_fails {mnzl : ℝ} {g : Geom ℝ} (G : g.Good) (w : Walls) (hw : w.r1 = false) (hn : 1 ≤ g.nr)
    (d0 d1 : ℝ) (id : Nat) : ∃ M : Nat, ∀ amount, M ≤ amount → ∀ ur uz, FlatNumbers amount ur uz →
      ∃ p ∈ random id mnzl g w (whole g) d0 d1 amount ur uz, ((g.r0 + g.nr : Nat) : ℝ) * g.dr ≤ p.posR ∧ ¬ g.Contains p.posR p.posZ := by
  -- a power of 13 above twice the number of cells
  obtain ⟨k, hk⟩ : ∃ k : Nat, 2 * g.nr ≤ 13 ^ k := by
    refine ⟨2 * g.nr, ?_⟩
    exact (Nat.lt_pow_self (by norm_num)).le
  obtain ⟨k, hk, k0⟩ : ∃ k : Nat, 2 * g.nr ≤ 13 ^ k ∧ 1 ≤ k := ⟨k + 1, hk.trans (Nat.pow_le_pow_right (by norm_num) (by omega)), by omega⟩
  exact ⟨13 ^ k, fun amount ha ur uz hf => flat_outside G w hw hn d0 d1 id hk k0 amount ha ur uz hf⟩

/-- C32, mode `regular`: the loops terminate with exactly one result, every position lies between `1/2` cell behind
the lower corner and half a cell plus the size, less one interval. -/
theorem C32_regular_partial {mnzl : ℝ} (hm : 0 < mnzl) {g : Geom ℝ} (w : Walls) (a : Area) (id : Nat) {ri zi : ℝ} (hr : 0 < ri) (hz : 0 < zi) :
    ∃ ps, Regular id mnzl g w a ri zi ps ∧ (∀ ps', Regular id mnzl g w a ri zi ps' → ps' = ps) ∧
      ∀ p ∈ ps, (a.int + 1 / 2) * g.dr < p.posR ∧ p.posR ≤ (a.int + 1 / 2) * g.dr + rSize g w a - ri ∧
        (a.left + 1 / 2) * g.dz < p.posZ ∧ p.posZ ≤ (a.left + 1 / 2) * g.dz + zSize g w a - zi := by
  obtain ⟨rs, hrs⟩ := forUp_exists (hi := rSize g w a - ri) hr mnzl
  obtain ⟨zs, hzs⟩ := forUp_exists (hi := zSize g w a - zi) hz mnzl
  refine ⟨_, ⟨rs, zs, hrs, hzs, rfl⟩, ?_, ?_⟩
  · rintro ps' ⟨rs', zs', h1, h2, rfl⟩
    rw [forUp_det h1 hrs, forUp_det h2 hzs]
  · intro p hp
    simp only [List.mem_flatMap, List.mem_map] at hp
    obtain ⟨x, hx, y, hy, rfl⟩ := hp
    have bound : ∀ {hi h : ℝ} {l : List ℝ} (hh : 0 < h), ForUp hi h mnzl l → ∀ x ∈ l, 0 < x ∧ x ≤ hi := by
      intro hi h l hh wl x hx
      obtain ⟨e, b, _⟩ := forUp_spec wl
      rw [e] at hx
      obtain ⟨k, hk, rfl⟩ := List.mem_map.mp hx
      exact ⟨by positivity, b k (List.mem_range.mp hk)⟩
    obtain ⟨x0, x1⟩ := bound hr hrs x hx
    obtain ⟨y0, y1⟩ := bound hz hzs y hy
    show _ < shiftR g a x ∧ shiftR g a x ≤ _ ∧ _ < shiftZ g a y ∧ shiftZ g a y ≤ _
    unfold shiftR shiftZ
    refine ⟨by linarith, by linarith, by linarith, by linarith⟩

/-- C32 fails for `regular`: in a square domain without outer walls and with `m^2` particles configured only
`(m - 1)^2` are placed. -/
theorem C32_regular_count_fails {mnzl : ℝ} (hm : 0 < mnzl) {g : Geom ℝ} (G : g.Good) (w : Walls) (hw1 : w.r1 = false) (hw2 : w.z1 = false)
    (n : Nat) (hn1 : g.nr = n) (hn2 : g.nz = n) (hn : 1 ≤ n) (hsq : g.dr = g.dz) (m id : Nat) (hm1 : 1 ≤ m) (hsmall : mnzl < n * g.dr / m) :
    ∃ ps, RegularPlacement id mnzl g w (whole g) (m * m) ps ∧ ps.length = (m - 1) * (m - 1) := by
  have dr := G.dr
  have n0 : (0 : ℝ) < n := by exact_mod_cast hn
  have m0 : (0 : ℝ) < m := by exact_mod_cast hm1
  have L0 : 0 < (n : ℝ) * g.dr := by positivity
  unfold RegularPlacement
  dsimp only
  rw [whole_sizes_r (by have := G.nr; omega), whole_sizes (by have := G.nz; omega), hn1, hn2, ← hsq]
  have sq : Real.sqrt (((m * m : Nat) : ℝ) * (n * g.dr) / (n * g.dr)) = m := by
    rw [mul_div_assoc, div_self L0.ne', mul_one, Nat.cast_mul, Real.sqrt_mul_self m0.le]
  rw [sq]
  have ip : 0 < (n : ℝ) * g.dr / m := by positivity
  have len : ∀ l : List ℝ, ForUp ((n : ℝ) * g.dr - n * g.dr / m) (n * g.dr / m) mnzl l → l.length = m - 1 := by
    intro l hl
    obtain ⟨_, b, c⟩ := forUp_spec hl
    set h := (n : ℝ) * g.dr / m with hh
    have eL : (n : ℝ) * g.dr = m * h := by rw [hh]; field_simp
    rw [eL] at b c
    have up : l.length ≤ m - 1 := by
      by_contra hcon
      have hc := not_le.mp hcon
      have := b (m - 1) hc
      rw [Nat.cast_sub hm1] at this
      push_cast at this
      linarith
    have lo : m - 1 ≤ l.length := by
      by_contra hcon
      have hc := not_le.mp hcon
      have : ((l.length : ℝ) + 1) ≤ m - 1 := by
        have : l.length + 1 ≤ m - 1 := hc
        have h2 : ((l.length + 1 : Nat) : ℝ) ≤ ((m - 1 : Nat) : ℝ) := by exact_mod_cast this
        rw [Nat.cast_sub hm1] at h2
        push_cast at h2
        exact h2
      have := mul_le_mul_of_nonneg_right this ip.le
      linarith
    omega
  have rs : rSize g w (whole g) = (n : ℝ) * g.dr := by
    unfold rSize; rw [whole_sizes_r (by have := G.nr; omega), hw1, hn1]; simp
  have zs : zSize g w (whole g) = (n : ℝ) * g.dr := by
    unfold zSize; rw [whole_sizes (by have := G.nz; omega), hw2, hn2, ← hsq]; simp
  unfold Regular
  rw [rs, zs]
  obtain ⟨l, hl⟩ := forUp_exists (hi := (n : ℝ) * g.dr - n * g.dr / m) ip mnzl
  refine ⟨_, ⟨l, l, hl, hl, rfl⟩, ?_⟩
  simp [List.length_flatMap, List.map_const', List.sum_replicate, len l hl]

/-! ### The whole initialisation of a species (modes `flat` and `random`) -/

/-- C31 and C32 together: after the initial distribution in a domain without outer walls there are exactly the
configured number of macroparticles and they represent exactly the physical particles of the domain. -/
theorem C31_fill_partial {mnzl : ℝ} (hm : 0 < mnzl) (hm1 : mnzl < 1) {g : Geom ℝ} (G : g.Good) (w : Walls)
    (hw1 : w.r1 = false) (hw2 : w.z1 = false) (hn1 : 1 ≤ g.nr) (hn2 : 1 ≤ g.nz) (d0 d1 : ℝ) (h0 : 0 ≤ d0) (h1 : 0 ≤ d1)
    (id amount : Nat) (ha : 1 ≤ amount) (ur uz : Nat → ℝ) (hur : ∀ i, 0 ≤ ur i ∧ ur i < 1) (huz : ∀ i, 0 ≤ uz i ∧ uz i < 1) :
    ∃ qs, fill id mnzl Real.pi g w d0 d1 amount ur uz = .ok qs ∧ qs.length = amount ∧
      totalWeight qs = physAmount d0 d1 (domainVolume Real.pi g) := by
  obtain ⟨len, pos⟩ := C32_random_partial hm hm1 G w hn1 hn2 d0 d1 h0 h1 id amount ur uz hur huz
  have hne : random id mnzl g w (whole g) d0 d1 amount ur uz ≠ [] := by
    intro h; rw [h] at len; simp at len; omega
  obtain ⟨qs, e, t, k⟩ := C31_weights_partial Real.pi_pos G w hw1 hw2 d0 d1 ha hne (fun p hp => by
    have := (pos p hp).1
    have dr := G.dr
    have : 0 < ((g.r0 : ℝ) + 1 / 2) * g.dr := by positivity
    linarith)
  refine ⟨qs, e, ?_, t⟩
  have := congrArg List.length k
  simpa [len] using this

/-! ### Concrete cases -/

noncomputable def exG : Geom ℝ := ⟨1 / 2, 1 / 2, 4, 8, 4, 4⟩
theorem exG_good : exG.Good := ⟨by norm_num [exG], by norm_num [exG], by decide, by decide⟩
def exGQ : Geom ℚ := ⟨1 / 2, 1 / 2, 4, 8, 4, 4⟩
theorem exGQ_good : exGQ.Good := ⟨by norm_num [exGQ], by norm_num [exGQ], by decide, by decide⟩
def noWalls : Walls := ⟨false, false, false, false⟩
def outerWalls : Walls := ⟨false, false, true, true⟩

example := C31_weights_partial (pi := (3 : ℚ)) (by norm_num) exGQ_good noWalls rfl rfl 1 2 (amount := 2) (by norm_num)
  (ps := [newPart 0 3 4, newPart 0 (5/2) 5]) (by simp) (by
    intro p hp; simp at hp; rcases hp with rfl | rfl <;> norm_num [newPart])
example := C31_shares (pi := (3 : ℚ)) (by norm_num) exGQ_good noWalls (whole exGQ) 1 2 (amount := 2) (by norm_num)
  (ps := [newPart 0 3 4, newPart 0 (1/5) 5]) (by simp) (by
    intro p hp; simp at hp; rcases hp with rfl | rfl <;> norm_num [newPart])
example := C32_flat (mnzl := 1/1000) exG_good outerWalls 1 3 100 (by norm_num)
example := C31_wall_fails (pi := (3 : ℚ)) (by norm_num) exGQ_good outerWalls (Or.inl rfl) (by decide) (by decide) 1 2 (by norm_num) (amount := 2) (by norm_num)
  (ps := [newPart 0 3 4, newPart 0 (5/2) 5]) (by simp) (by
    intro p hp; simp at hp; rcases hp with rfl | rfl <;> norm_num [newPart])
example := C31_domains (1 : ℚ) 2 (1/2) 5 (by norm_num) 4 8 (by norm_num) (by norm_num)
example := C31_processes_fails (1 : ℚ) 2 (1/2) (by norm_num) 4 8 (by norm_num) (by norm_num) (by norm_num)
example := C32_centered_partial (mnzl := (1/1000 : ℚ)) (by norm_num) exGQ_good (by norm_num [exGQ]) (by norm_num [exGQ]) outerWalls 7 32 (by norm_num)
  (by decide) (by decide)
example := C32_centered_count_fails (mnzl := (1/1000 : ℚ)) (by norm_num) exGQ_good (by norm_num [exGQ]) (by norm_num [exGQ]) outerWalls rfl rfl 7 0 rfl rfl (by norm_num)
example := C32_nearest (K := ℚ) (number := 50) (n := 16) (by norm_num) (by norm_num)
example : ∃ ur uz, ∃ qs, fill 3 (1/1000) Real.pi exG noWalls 1 2 100 ur uz = .ok qs ∧ qs.length = 100 := by
  obtain ⟨ur, uz, _, h1, h2⟩ := flat_numbers 100 (by norm_num)
  obtain ⟨qs, e, l, _⟩ := C31_fill_partial (mnzl := 1/1000) (by norm_num) (by norm_num) exG_good noWalls rfl rfl (by decide) (by decide)
    1 2 (by norm_num) (by norm_num) 3 100 (by norm_num) ur uz h1 h2
  exact ⟨ur, uz, qs, e, l⟩
example := C32_flat_outside_fails (mnzl := 1/1000) exG_good noWalls rfl (by decide) 1 1 3
example := C32_regular_count_fails (mnzl := 1/1000) (by norm_num) exG_good noWalls rfl rfl 4 rfl rfl (by norm_num) rfl 5 3 (by norm_num)
  (by norm_num [exG])
example := C32_profile (mnzl := 1/1000) (g := exG) noWalls (whole exG) (by
  unfold zSize; rw [whole_sizes (by decide)]; norm_num [exG, noWalls]) 1 3 (by norm_num) (by norm_num) 3 (1/3) (1/4) (by norm_num) (by norm_num)

end Place
end Pico
