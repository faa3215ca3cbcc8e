import Verif.Lemmas.CurrentMpi

/-!
# C99 — currents of several processes

What the cells of all processes hold after the current step, compared with the step of the undivided area.
-/

set_option linter.unusedSimpArgs false
set_option linter.unusedVariables false
set_option linter.unusedSectionVars false

namespace Pico
namespace Yee

open SMB VB

variable {K : Type _} [Field K] [LinearOrder K] [IsStrictOrderedRing K] [FloorRing K]

section
variable {p : Par K} {procs domR domZ : Nat} (S : Slabs p procs domR domZ) (e : Consts K)
include S

/-- The surroundings of a domain are a part of the surroundings of the area. -/
theorem mpiCtx_eq (k i j : Nat) : mpiCtx p procs domR domZ e k i j =
    (ctxOf p 0 e).part (low p.nr domR i) (colStart p procs domZ k j) (hgt p.nr domR i) (hgt (slabLen p procs) domZ j) := by
  have h1 := winPar_nr (slabPar p procs k) domR domZ i j
  have h2 := winPar_nz (slabPar p procs k) domR domZ i j
  have h3 : (domDims (geoMpi p procs domR domZ k) i j).z0 = colStart p procs domZ k j + 0 := by
    show p.nz / procs * j / domZ + p.nz / procs * k = k * slabLen p procs + low (slabLen p procs) domZ j + 0
    unfold low slabLen
    rw [Nat.add_comm, Nat.mul_comm (p.nz / procs) k]
    rfl
  unfold mpiCtx ctxOf Ctx.part
  rw [mpiPar_eq S, h3]
  dsimp only
  rw [h1, h2]
  rfl

theorem slab_bounds {k j : Nat} (hk : k < procs) (hj : j < domZ) :
    colStart p procs domZ k j + hgt (slabLen p procs) domZ j ≤ p.nz := by
  unfold colStart
  have h1 : low (slabLen p procs) domZ j + hgt (slabLen p procs) domZ j ≤ slabLen p procs := (S.hd.bounds S.hd.r1 hj).2.2.1
  have h2 : (k + 1) * slabLen p procs ≤ procs * slabLen p procs := Nat.mul_le_mul_right _ hk
  rw [← S.len] at h2
  have h3 : (k + 1) * slabLen p procs = k * slabLen p procs + slabLen p procs := by ring
  omega

theorem mpi_good (hx : (ctxOf p 0 e).Good) {k i j : Nat} (hk : k < procs) (hi : i < domR) (hj : j < domZ) :
    (mpiCtx p procs domR domZ e k i j).Good := by
  rw [mpiCtx_eq S]
  have b1 : low p.nr domR i + hgt p.nr domR i ≤ p.nr := (S.hd.bounds hi hj).1.2.1
  have b2 := slab_bounds S hk hj
  have g1 : p.r0 + p.nr < 2 ^ 31 := hx.geo.nr
  have g2 : 0 + p.nz < 2 ^ 31 := hx.geo.nz
  refine ⟨⟨hx.geo.dr, hx.geo.dz, ?_, ?_⟩, hx.dt, hx.pi, hx.mnzl⟩
  · show low p.nr domR i + p.r0 + hgt p.nr domR i < 2 ^ 31
    omega
  · show colStart p procs domZ k j + 0 + hgt (slabLen p procs) domZ j < 2 ^ 31
    omega

theorem mpi_bound (hx : (ctxOf p 0 e).Good) {k i j : Nat} (hk : k < procs) (hi : i < domR) (hj : j < domZ) {q : VB.Part K}
    (hb : q.Bound (mpiCtx p procs domR domZ e k i j).g) : q.Bound (ctxOf p 0 e).g := by
  rw [mpiCtx_eq S] at hb
  have b1 : low p.nr domR i + hgt p.nr domR i ≤ p.nr := (S.hd.bounds hi hj).1.2.1
  have b2 := slab_bounds S hk hj
  have dr := hx.geo.dr
  have dz := hx.geo.dz
  obtain ⟨⟨c1, c2, c3, c4⟩, h2, h3, h4, h5⟩ := hb
  refine ⟨⟨le_trans ?_ c1, lt_of_lt_of_le c2 ?_, le_trans ?_ c3, lt_of_lt_of_le c4 ?_⟩, h2, h3, h4, h5⟩
  · refine mul_le_mul_of_nonneg_right ?_ dr.le
    exact Nat.cast_le.mpr (show p.r0 ≤ low p.nr domR i + p.r0 by omega)
  · refine mul_le_mul_of_nonneg_right ?_ dr.le
    exact Nat.cast_le.mpr (show low p.nr domR i + p.r0 + hgt p.nr domR i ≤ p.r0 + p.nr by omega)
  · refine mul_le_mul_of_nonneg_right ?_ dz.le
    exact Nat.cast_le.mpr (show 0 ≤ colStart p procs domZ k j + 0 by omega)
  · refine mul_le_mul_of_nonneg_right ?_ dz.le
    exact Nat.cast_le.mpr (show colStart p procs domZ k j + 0 + hgt (slabLen p procs) domZ j ≤ 0 + p.nz by omega)

theorem mpi_near {k i j : Nat} {q : VB.Part K} (hn : q.NearCell (mpiCtx p procs domR domZ e k i j).g) : q.NearCell (ctxOf p 0 e).g := by
  rw [mpiCtx_eq S] at hn
  exact hn

theorem col_start (k j : Nat) (y : Int) : (colStart p procs domZ k j : Int) + y = colOf p procs domZ k j y := by
  unfold colStart colOf
  push_cast
  ring

theorem mpi_zz (k i j : Nat) (q : VB.Part K) (c : Comp) (x y : Int) :
    zz (mpiCtx p procs domR domZ e k i j) q c x y = zz (ctxOf p 0 e) q c (rowOf p domR i x) (colOf p procs domZ k j y) := by
  rw [mpiCtx_eq S, ← col_start S]
  unfold zz rowOf
  rw [cellOps_part, shift_tot, add_comm x, add_comm y]
  rfl

theorem mpi_inside (k i j : Nat) (x y : Int) :
    insideG (mpiCtx p procs domR domZ e k i j).g x y ↔ (winPar (slabPar p procs k) domR domZ i j).inside x y := by
  rw [mpiCtx_eq S]
  unfold insideG Par.inside
  rw [winPar_nr, winPar_nz]
  rfl

theorem mpi_cell_inside {k i j : Nat} {x y : Int} (h : CellOfMpi p procs domR domZ k i j x y) :
    insideG (ctxOf p 0 e).g (rowOf p domR i x) (colOf p procs domZ k j y) := by
  obtain ⟨hk, hi, hj, h1, h2⟩ := h
  have b1 : low p.nr domR i + hgt p.nr domR i ≤ p.nr := (S.hd.bounds hi hj).1.2.1
  have b2 := slab_bounds S hk hj
  rw [← col_start S]
  unfold rowOf
  show (-2 ≤ _ ∧ _ < (p.nr : Int) + 2) ∧ (-2 ≤ _ ∧ _ < (p.nz : Int) + 2)
  omega

end

theorem sum_partsOfMpi (procs domR domZ : Nat) (keep : Nat → Nat → Nat → Bool) (ps : Nat → Nat → Nat → List (VB.Part K)) (d : VB.Part K → K) :
    ((partsOfMpi procs domR domZ keep ps).map d).sum =
      ∑ l ∈ Finset.range procs, ∑ a ∈ Finset.range domR, ∑ b ∈ Finset.range domZ, if keep l a b then ((ps l a b).map d).sum else 0 := by
  unfold partsOfMpi
  rw [sum_flat]
  exact Finset.sum_congr rfl fun l _ => sum_partsOf domR domZ (keep l) (ps l) d

theorem mem_partsOfMpi {procs domR domZ : Nat} {keep : Nat → Nat → Nat → Bool} {ps : Nat → Nat → Nat → List (VB.Part K)} {q : VB.Part K} :
    q ∈ partsOfMpi procs domR domZ keep ps ↔ ∃ l a b, l < procs ∧ a < domR ∧ b < domZ ∧ keep l a b = true ∧ q ∈ ps l a b := by
  unfold partsOfMpi
  simp only [List.mem_flatMap, List.mem_range, mem_partsOf]
  constructor
  · rintro ⟨l, hl, a, b, ha, hb, hk, h⟩
    exact ⟨l, a, b, hl, ha, hb, hk, h⟩
  · rintro ⟨l, a, b, hl, ha, hb, hk, h⟩
    exact ⟨l, hl, a, b, ha, hb, hk, h⟩

/-- C99, ZigZag scheme, exactly: whatever the schedule of the messages, a cell of domain `(i, j)` of process `k` holds what it
holds after the step of the undivided area with all particles but those of the domains that touch it at a corner only, as far as
the exchange skips them (`CornerMpi`).  With room for the messages there is such a step.  Full statement (false, see
`C99_corner_fails`): with all particles, whatever the room. -/
theorem C99_zigzag_exact_partial (p : Par K) {procs domR domZ : Nat} (cap : Nat) (S : Slabs p procs domR domZ) (e : Consts K)
    (hx : (ctxOf p 0 e).Good) (ps : Nat → Nat → Nat → List (VB.Part K)) (hp : HousedMpi p procs domR domZ e ps) (M : Nat → Solvers K)
    (m : Mem K) :
    (∀ M', CurrentMpi ZigZag.currentDistribution p procs domR domZ cap e ps M M' → ∀ k, k < procs →
      (∀ i j c x y, i < domR → j < domZ → c ≠ .jr → c ≠ .jp → c ≠ .jz → M' k i j c x y = M k i j c x y) ∧
      ∀ i j, i < domR → j < domZ → ∀ qs, qs.Perm (partsOfMpi procs domR domZ (fun l a b => !CornerMpi domZ k i j l a b) ps) →
        ∃ m', ZigZag.currentDistribution (ctxOf p 0 e) qs (resetCurrent (ctxOf p 0 e).g m) = .ok m' ∧
          ∀ c x y, c = .jr ∨ c = .jp ∨ c = .jz → CellOfMpi p procs domR domZ k i j x y →
            M' k i j c x y = m' c (rowOf p domR i x) (colOf p procs domZ k j y)) ∧
    (domR ≤ cap → ∃ M', CurrentMpi ZigZag.currentDistribution p procs domR domZ cap e ps M M') := by
  obtain ⟨w1, w2⟩ := mpi_gather ZigZag.currentDistribution p cap S e ps M
    (fun c l a b X Y => ((ps l a b).map fun q => zz (ctxOf p 0 e) q c X Y).sum)
    (fun k i j hk hi hj => by
      obtain ⟨r, e1, v, k1⟩ := zz_run (mpiCtx p procs domR domZ e k i j) (mpi_good S e hx hk hi hj) (ps k i j) (hp k i j hk hi hj) (M k i j)
      refine ⟨r, e1, ?_, k1⟩
      intro c hc x y hin
      rw [v c hc x y ((mpi_inside S e k i j x y).mpr hin)]
      simp only [mpi_zz S e])
    (fun c hc k i j x y hk hi hj hin => by
      refine List.sum_eq_zero fun v hv => ?_
      obtain ⟨q, hq, rfl⟩ := List.mem_map.mp hv
      rw [← mpi_zz S e]
      obtain ⟨_, inc⟩ := ZigZag.near_cells _ (mpi_good S e hx hk hi hj) q (hp k i j hk hi hj q hq).1 (hp k i j hk hi hj q hq).2
      exact tot_none _ _ _ _ fun o ho => inc_outside (inc o ho) c (fun h => hin ((mpi_inside S e k i j x y).mp h)))
  refine ⟨?_, w2⟩
  intro M' hM k hk
  obtain ⟨a1, a2⟩ := w1 M' hM k hk
  refine ⟨fun i j c x y hi hj n1 n2 n3 => a1 i j c x y hi hj (by unfold isJ; tauto), ?_⟩
  intro i j hi hj qs hqs
  obtain ⟨m', e2, v, _⟩ := zz_run (ctxOf p 0 e) hx qs (fun q hq => by
    obtain ⟨l, a, b, hl, ha, hb, _, h⟩ := mem_partsOfMpi.mp (hqs.mem_iff.mp hq)
    have := hp l a b hl ha hb q h
    exact ⟨mpi_bound S e hx hl ha hb this.1, mpi_near S e this.2⟩) m
  refine ⟨m', e2, ?_⟩
  intro c x y hc hcell
  rw [a2 c hc i j x y hcell, v c hc _ _ (mpi_cell_inside S e hcell), (hqs.map _).sum_eq, sum_partsOfMpi]

/-- A particle whose path does not cut a corner leaves nothing in the domains at the corners. -/
theorem corner_clear_mpi {p : Par K} {procs domR domZ : Nat} (S : Slabs p procs domR domZ) (e : Consts K) (hx : (ctxOf p 0 e).Good)
    {k i j l a b : Nat} (hl : l < procs) (ha : a < domR) (hb : b < domZ) {x y : Int} (hc : CellOfMpi p procs domR domZ k i j x y)
    (han : CornerMpi domZ k i j l a b = true) {q : VB.Part K} (hq : q.Bound (mpiCtx p procs domR domZ e l a b).g)
    (hk : ¬ CutsCornerMpi p procs domR domZ l a b q) :
    ¬ ((min ⌊q.r / p.dr⌋ ⌊q.rOld / p.dr⌋ - p.r0 ≤ rowOf p domR i x ∧ rowOf p domR i x ≤ max ⌊q.r / p.dr⌋ ⌊q.rOld / p.dr⌋ - p.r0 + 1) ∧
      (min ⌊q.z / p.dz⌋ ⌊q.zOld / p.dz⌋ - (0 : Nat) ≤ colOf p procs domZ k j y ∧
        colOf p procs domZ k j y ≤ max ⌊q.z / p.dz⌋ ⌊q.zOld / p.dz⌋ - (0 : Nat) + 1)) := by
  obtain ⟨_, _, c1, c2⟩ := bound_cells (mpi_good S e hx hl ha hb).geo hq
  rw [mpiCtx_eq S] at c1 c2
  have c1 : ((low p.nr domR a + p.r0 : Nat) : Int) ≤ ⌊q.r / p.dr⌋ ∧ ⌊q.r / p.dr⌋ < ((low p.nr domR a + p.r0 : Nat) : Int) + hgt p.nr domR a := c1
  have c2 : ((colStart p procs domZ l b + 0 : Nat) : Int) ≤ ⌊q.z / p.dz⌋ ∧
    ⌊q.z / p.dz⌋ < ((colStart p procs domZ l b + 0 : Nat) : Int) + hgt (slabLen p procs) domZ b := c2
  obtain ⟨hk0, hi, hj, h1, h2⟩ := hc
  have r1 : 1 ≤ domR := S.hd.r1
  have r2 : 2 * domR ≤ p.nr := S.hd.r2
  have z2 : 2 * domZ ≤ slabLen p procs := S.hd.z2
  have s1 : low p.nr domR (i+1) = low p.nr domR i + hgt p.nr domR i := by
    have := low_step r1 r2 i; unfold hgt; omega
  have s2 : colStart p procs domZ k (j+1) = colStart p procs domZ k j + hgt (slabLen p procs) domZ j := by
    have := low_step S.hd.z1 z2 j; unfold hgt colStart; omega
  have s3 : ∀ k, colStart p procs domZ k domZ = (k + 1) * slabLen p procs := by
    intro k
    unfold colStart
    rw [S.low_z, ← S.dlen]
    ring
  have s4 : ∀ k, colStart p procs domZ k 0 = k * slabLen p procs := by
    intro k
    unfold colStart
    rw [S.low_z, Nat.zero_mul, Nat.add_zero]
  rw [← col_start S]
  unfold rowOf
  unfold CornerMpi at han
  unfold CutsCornerMpi at hk
  intro h
  apply hk
  rcases of_decide_eq_true han with ⟨rfl, hd⟩ | ⟨hs, hrow⟩
  · unfold Antidiagonal at hd
    rcases of_decide_eq_true hd with ⟨rfl, rfl⟩ | ⟨rfl, rfl⟩
    · left; omega
    · right; left; omega
  · right; right
    constructor
    · unfold LeavesRow
      rcases hrow with rfl | rfl
      · left; omega
      · right; omega
    · unfold LeavesSlab
      rcases hs with ⟨rfl, h3, rfl⟩ | ⟨rfl, rfl, h3⟩
      · left
        have := s3 k
        have := s4 (k + 1)
        rw [h3] at s2
        omega
      · right
        have := s4 (l + 1)
        have := s3 l
        omega

/-- C99, ZigZag scheme: if no path cuts a corner, the current step of all processes gives in every cell of every domain what the
step of the undivided area gives with the particles of all processes in any order. -/
theorem C99_zigzag_partial (p : Par K) {procs domR domZ : Nat} (cap : Nat) (S : Slabs p procs domR domZ) (e : Consts K)
    (hx : (ctxOf p 0 e).Good) (ps : Nat → Nat → Nat → List (VB.Part K)) (hp : HousedMpi p procs domR domZ e ps)
    (hk : ∀ l a b, l < procs → a < domR → b < domZ → ∀ q ∈ ps l a b, ¬ CutsCornerMpi p procs domR domZ l a b q)
    (qs : List (VB.Part K)) (hqs : qs.Perm (partsOfMpi procs domR domZ (fun _ _ _ => true) ps)) (M : Nat → Solvers K) (m : Mem K) :
    ∃ m', ZigZag.currentDistribution (ctxOf p 0 e) qs (resetCurrent (ctxOf p 0 e).g m) = .ok m' ∧
      (∀ M', CurrentMpi ZigZag.currentDistribution p procs domR domZ cap e ps M M' → ∀ k i j c x y, c = .jr ∨ c = .jp ∨ c = .jz →
        CellOfMpi p procs domR domZ k i j x y → M' k i j c x y = m' c (rowOf p domR i x) (colOf p procs domZ k j y)) ∧
      (domR ≤ cap → ∃ M', CurrentMpi ZigZag.currentDistribution p procs domR domZ cap e ps M M') := by
  obtain ⟨w, ex⟩ := C99_zigzag_exact_partial p cap S e hx ps hp M m
  have ok : ∀ keep, ∀ q ∈ partsOfMpi procs domR domZ keep ps, q.Bound (ctxOf p 0 e).g ∧ q.NearCell (ctxOf p 0 e).g := by
    intro keep q hq
    obtain ⟨l, a, b, hl, ha, hb, _, h⟩ := mem_partsOfMpi.mp hq
    have := hp l a b hl ha hb q h
    exact ⟨mpi_bound S e hx hl ha hb this.1, mpi_near S e this.2⟩
  obtain ⟨m', e2, v, _⟩ := zz_run (ctxOf p 0 e) hx qs (fun q hq => ok _ q (hqs.mem_iff.mp hq)) m
  refine ⟨m', e2, ?_, ex⟩
  intro M' hM k i j c x y hc hcell
  obtain ⟨m1, e3, w1⟩ := (w M' hM k hcell.1).2 i j hcell.2.1 hcell.2.2.1 _ (List.Perm.refl _)
  obtain ⟨m2, e4, v2, _⟩ := zz_run (ctxOf p 0 e) hx _ (ok fun l a b => !CornerMpi domZ k i j l a b) m
  obtain rfl := Res.ok.inj (e3.symm.trans e4)
  rw [w1 c x y hc hcell, v2 c hc _ _ (mpi_cell_inside S e hcell), v c hc _ _ (mpi_cell_inside S e hcell), (hqs.map _).sum_eq,
    sum_partsOfMpi, sum_partsOfMpi]
  refine Finset.sum_congr rfl fun l hl => Finset.sum_congr rfl fun a ha => Finset.sum_congr rfl fun b hb => ?_
  rw [if_pos rfl]
  cases han : CornerMpi domZ k i j l a b with
  | false => rfl
  | true =>
    refine Eq.symm (List.sum_eq_zero fun v hv => ?_)
    obtain ⟨q, hq, rfl⟩ := List.mem_map.mp hv
    have hl := Finset.mem_range.mp hl
    have ha := Finset.mem_range.mp ha
    have hb := Finset.mem_range.mp hb
    exact zz_support _ q c _ _ (corner_clear_mpi S e hx hl ha hb hcell han (hp l a b hl ha hb q hq).1 (hk l a b hl ha hb q hq))

/-! ## The Villasenor–Buneman scheme -/

theorem mpi_deposit {p : Par K} {procs domR domZ : Nat} (S : Slabs p procs domR domZ) (e : Consts K) (k i j : Nat) {q : VB.Part K}
    {ops : List (Op K)} (h : rzOps (ctxOf p 0 e) q = .ok ops) (c : Comp) (x y : Int) :
    depositBy (mpiCtx p procs domR domZ e k i j) q c x y = depositBy (ctxOf p 0 e) q c (rowOf p domR i x) (colOf p procs domZ k j y) := by
  rw [mpiCtx_eq S, ← col_start S]
  unfold depositBy rowOf
  rw [rzOps_part _ _ _ _ _ q h, h]
  dsimp only
  rw [shift_tot, add_comm x, add_comm y]

theorem mpi_az {p : Par K} {procs domR domZ : Nat} (S : Slabs p procs domR domZ) (e : Consts K) (k i j : Nat) (q : VB.Part K) (c : Comp)
    (x y : Int) : tot (azimuthalOps (mpiCtx p procs domR domZ e k i j) q) c x y =
      tot (azimuthalOps (ctxOf p 0 e) q) c (rowOf p domR i x) (colOf p procs domZ k j y) := by
  rw [mpiCtx_eq S, ← col_start S, azimuthalOps_part, shift_tot, add_comm x, add_comm y]
  rfl

/-- No particle moves along the axis only (those erase radial currents, C19). -/
def SlantedMpi (mnzl : K) (procs domR domZ : Nat) (ps : Nat → Nat → Nat → List (VB.Part K)) : Prop :=
  ∀ l, l < procs → Slanted mnzl domR domZ (ps l)

/-- A cell of another domain is not in the rectangle of domain `(a, b)` of process `l`. -/
theorem mpi_apart {p : Par K} {procs domR domZ : Nat} (S : Slabs p procs domR domZ) {k i j l a b : Nat} {x y : Int}
    (hc : CellOfMpi p procs domR domZ k i j x y) (hl : l < procs) (ha : a < domR) (hb : b < domZ) (hne : ¬ (l = k ∧ a = i ∧ b = j)) :
    ¬ ((0 ≤ rowOf p domR i x - low p.nr domR a ∧ rowOf p domR i x - low p.nr domR a < hgt p.nr domR a) ∧
      (0 ≤ colOf p procs domZ k j y - colStart p procs domZ l b ∧
        colOf p procs domZ k j y - colStart p procs domZ l b < hgt (slabLen p procs) domZ b)) := by
  obtain ⟨hk0, hi, hj, h1, h2⟩ := hc
  have r1 : 1 ≤ domR := S.hd.r1
  have r2 : 2 * domR ≤ p.nr := S.hd.r2
  have z2 : 2 * domZ ≤ slabLen p procs := S.hd.z2
  have step : ∀ d n a b, 1 ≤ d → 2 * d ≤ n → a < b → low n d a + hgt n d a ≤ low n d b := by
    intro d n a b h1 h2 h3
    have := low_step h1 h2 a
    have := low_mono (n := n) (d := d) (show a + 1 ≤ b from h3)
    unfold hgt
    omega
  have slab : ∀ u v s t, u < v → s < domZ → t < domZ → colStart p procs domZ u s + hgt (slabLen p procs) domZ s ≤ colStart p procs domZ v t := by
    intro u v s t huv hs ht
    have a1 : low (slabLen p procs) domZ s + hgt (slabLen p procs) domZ s ≤ slabLen p procs := (S.hd.bounds S.hd.r1 hs).2.2.1
    have a2 : (u + 1) * slabLen p procs ≤ v * slabLen p procs := Nat.mul_le_mul_right _ huv
    have a3 : (u + 1) * slabLen p procs = u * slabLen p procs + slabLen p procs := by ring
    unfold colStart
    omega
  rw [← col_start S]
  unfold rowOf
  intro h
  by_cases e1 : l = k
  · subst e1
    by_cases e2 : a = i
    · subst e2
      have e3 : b ≠ j := fun h => hne ⟨rfl, rfl, h⟩
      have t1 := step domZ (slabLen p procs) b j S.hd.z1 z2
      have t2 := step domZ (slabLen p procs) j b S.hd.z1 z2
      unfold colStart at h
      omega
    · have t1 := step domR p.nr a i r1 r2
      have t2 := step domR p.nr i a r1 r2
      omega
  · have t1 := slab l k b j
    have t2 := slab k l j b
    omega

/-- C99, Villasenor–Buneman scheme, exactly: the radial and axial currents in a cell of domain `(i, j)` of process `k` are those
of the undivided area with all particles but those of the domains at the corners (`CornerMpi`); the azimuthal current is that of
the particles of the domain alone.  Full statement (false, see `C99_corner_fails` and `C96_azimuthal_fails`): those of all
particles. -/
theorem C99_vb_exact_partial (p : Par K) {procs domR domZ : Nat} (cap : Nat) (S : Slabs p procs domR domZ) (e : Consts K)
    (hx : (ctxOf p 0 e).Good) (ps : Nat → Nat → Nat → List (VB.Part K)) (hp : HousedMpi p procs domR domZ e ps)
    (hs : SlantedMpi e.mnzl procs domR domZ ps) (M : Nat → Solvers K) (m : Mem K) :
    (∀ M', CurrentMpi VB.currentDistribution p procs domR domZ cap e ps M M' → ∀ k, k < procs →
      (∀ i j c x y, i < domR → j < domZ → c ≠ .jr → c ≠ .jp → c ≠ .jz → M' k i j c x y = M k i j c x y) ∧
      (∀ i j, i < domR → j < domZ → ∀ qs, qs.Perm (partsOfMpi procs domR domZ (fun l a b => !CornerMpi domZ k i j l a b) ps) →
        ∃ m', VB.currentDistribution (ctxOf p 0 e) qs (resetCurrent (ctxOf p 0 e).g m) = .ok m' ∧
          ∀ c x y, c = .jr ∨ c = .jz → CellOfMpi p procs domR domZ k i j x y →
            M' k i j c x y = m' c (rowOf p domR i x) (colOf p procs domZ k j y)) ∧
      ∀ i j, i < domR → j < domZ →
        ∃ m', VB.currentDistribution (ctxOf p 0 e) (ps k i j) (resetCurrent (ctxOf p 0 e).g m) = .ok m' ∧
          ∀ x y, CellOfMpi p procs domR domZ k i j x y →
            M' k i j .jp x y = m' .jp (rowOf p domR i x) (colOf p procs domZ k j y)) ∧
    (domR ≤ cap → ∃ M', CurrentMpi VB.currentDistribution p procs domR domZ cap e ps M M') := by
  have all : ∀ l a b, l < procs → a < domR → b < domZ → ∀ q ∈ ps l a b, q.Bound (mpiCtx p procs domR domZ e l a b).g ∧
      q.NearCell (mpiCtx p procs domR domZ e l a b).g ∧
      ((mpiCtx p procs domR domZ e l a b).mnzl ≤ |q.r - q.rOld| ∨ |q.z - q.zOld| < (mpiCtx p procs domR domZ e l a b).mnzl) :=
    fun l a b hl ha hb q hq => ⟨(hp l a b hl ha hb q hq).1, (hp l a b hl ha hb q hq).2, hs l hl a b ha hb q hq⟩
  have whole : ∀ l a b, l < procs → a < domR → b < domZ → ∀ q ∈ ps l a b, q.Bound (ctxOf p 0 e).g ∧ q.NearCell (ctxOf p 0 e).g ∧
      ((ctxOf p 0 e).mnzl ≤ |q.r - q.rOld| ∨ |q.z - q.zOld| < (ctxOf p 0 e).mnzl) :=
    fun l a b hl ha hb q hq => ⟨mpi_bound S e hx hl ha hb (hp l a b hl ha hb q hq).1, mpi_near S e (hp l a b hl ha hb q hq).2, hs l hl a b ha hb q hq⟩
  have dp : ∀ l a b, l < procs → a < domR → b < domZ → ∀ q ∈ ps l a b, ∀ c x y, depositBy (mpiCtx p procs domR domZ e l a b) q c x y =
      depositBy (ctxOf p 0 e) q c (rowOf p domR a x) (colOf p procs domZ l b y) := by
    intro l a b hl ha hb q hq c x y
    obtain ⟨ops, h, _⟩ := rzOps_inc _ hx q (whole l a b hl ha hb q hq).1 (whole l a b hl ha hb q hq).2.1 (whole l a b hl ha hb q hq).2.2
    exact mpi_deposit S e l a b h c x y
  have rx : ∀ i x, rowOf p domR i x - low p.nr domR i = x := fun i x => by unfold rowOf; omega
  have ry : ∀ k j y, colOf p procs domZ k j y - colStart p procs domZ k j = y := fun k j y => by rw [← col_start S]; omega
  obtain ⟨w1, w2⟩ := mpi_gather VB.currentDistribution p cap S e ps M
    (fun c l a b X Y => if c = .jp then
        (if (0 ≤ X - low p.nr domR a ∧ X - low p.nr domR a < hgt p.nr domR a) ∧
            (0 ≤ Y - colStart p procs domZ l b ∧ Y - colStart p procs domZ l b < hgt (slabLen p procs) domZ b) then
          ((ps l a b).map fun q => tot (azimuthalOps (ctxOf p 0 e) q) .jp X Y).sum else 0)
      else ((ps l a b).map fun q => depositBy (ctxOf p 0 e) q c X Y).sum)
    (fun k i j hk hi hj => by
      obtain ⟨r, e1, v, vp, k1⟩ := vb_run (mpiCtx p procs domR domZ e k i j) (mpi_good S e hx hk hi hj) (ps k i j) (all k i j hk hi hj) (M k i j)
      refine ⟨r, e1, ?_, k1⟩
      intro c hc x y hin
      have hin' := (mpi_inside S e k i j x y).mpr hin
      by_cases h : c = .jp
      · subst h
        rw [if_pos rfl, vp x y hin', rx, ry]
        have n1 : (mpiCtx p procs domR domZ e k i j).g.nr = hgt p.nr domR i := by rw [mpiCtx_eq S]; rfl
        have n2 : (mpiCtx p procs domR domZ e k i j).g.nz = hgt (slabLen p procs) domZ j := by rw [mpiCtx_eq S]; rfl
        rw [n1, n2]
        simp only [mpi_az S e]
      · rw [if_neg h, v c (by rcases hc with h1 | h1 | h1; exacts [Or.inl h1, absurd h1 h, Or.inr h1]) x y hin']
        congr 1
        exact List.map_congr_left fun q hq => dp k i j hk hi hj q hq c x y)
    (fun c hc k i j x y hk hi hj hin => by
      have hin' : ¬ insideG (mpiCtx p procs domR domZ e k i j).g x y := fun h => hin ((mpi_inside S e k i j x y).mp h)
      by_cases h : c = .jp
      · rw [if_pos h]
        refine if_neg (fun h2 => hin ?_)
        rw [rx, ry] at h2
        unfold Par.inside
        rw [winPar_nr, winPar_nz]
        show _ ∧ _ ∧ _ < (hgt (slabLen p procs) domZ j : Int) + 2
        have : (slabPar p procs k).nr = p.nr := rfl
        rw [this]
        omega
      · rw [if_neg h]
        refine List.sum_eq_zero fun v hv => ?_
        obtain ⟨q, hq, rfl⟩ := List.mem_map.mp hv
        rw [← dp k i j hk hi hj q hq]
        have b := all k i j hk hi hj q hq
        obtain ⟨ops, h, inc⟩ := rzOps_inc _ (mpi_good S e hx hk hi hj) q b.1 b.2.1 b.2.2
        rw [depositBy_fine h]
        exact tot_none _ _ _ _ fun o ho => inc_outside (inc o ho) c hin')
  refine ⟨?_, w2⟩
  intro M' hM k hk
  obtain ⟨a1, a2⟩ := w1 M' hM k hk
  refine ⟨fun i j c x y hi hj n1 n2 n3 => a1 i j c x y hi hj (by unfold isJ; tauto), ?_, ?_⟩
  · intro i j hi hj qs hqs
    obtain ⟨m', e2, v, _⟩ := vb_run (ctxOf p 0 e) hx qs (fun q hq => by
      obtain ⟨l, a, b, hl, ha, hb, _, h⟩ := mem_partsOfMpi.mp (hqs.mem_iff.mp hq)
      exact whole l a b hl ha hb q h) m
    refine ⟨m', e2, ?_⟩
    intro c x y hc hcell
    have hc' : isJ c := by rcases hc with h | h <;> simp [isJ, h]
    have hp' : c ≠ .jp := by rcases hc with h | h <;> simp [h]
    rw [a2 c hc' i j x y hcell, v c hc _ _ (mpi_cell_inside S e hcell), (hqs.map _).sum_eq, sum_partsOfMpi]
    simp only [if_neg hp']
  · intro i j hi hj
    obtain ⟨m', e2, _, v, _⟩ := vb_run (ctxOf p 0 e) hx (ps k i j) (whole k i j hk hi hj) m
    refine ⟨m', e2, ?_⟩
    intro x y hcell
    have b1 : low p.nr domR i + hgt p.nr domR i ≤ p.nr := (S.hd.bounds hi hj).1.2.1
    have b2 := slab_bounds S hk hj
    have hcell' := hcell
    obtain ⟨_, _, _, c1, c2⟩ := hcell
    have cl : (0 ≤ rowOf p domR i x ∧ rowOf p domR i x < (ctxOf p 0 e).g.nr) ∧
        (0 ≤ colOf p procs domZ k j y ∧ colOf p procs domZ k j y < (ctxOf p 0 e).g.nz) := by
      show (_ ∧ _ < (p.nr : Int)) ∧ (_ ∧ _ < (p.nz : Int))
      rw [← col_start S]
      unfold rowOf
      omega
    rw [a2 .jp (Or.inr (Or.inl rfl)) i j x y hcell', v _ _ (mpi_cell_inside S e hcell'), if_pos cl]
    simp only [↓reduceIte]
    have zero : ∀ l a b, l < procs → a < domR → b < domZ → ¬ (l = k ∧ a = i ∧ b = j) → ∀ w : K, (if (!CornerMpi domZ k i j l a b) = true then
        (if (0 ≤ rowOf p domR i x - low p.nr domR a ∧ rowOf p domR i x - low p.nr domR a < hgt p.nr domR a) ∧
          (0 ≤ colOf p procs domZ k j y - colStart p procs domZ l b ∧
            colOf p procs domZ k j y - colStart p procs domZ l b < hgt (slabLen p procs) domZ b) then w else 0) else 0) = 0 := by
      intro l a b hl ha hb hne w
      split
      · exact if_neg (mpi_apart S hcell' hl ha hb hne)
      · rfl
    rw [Finset.sum_eq_single k, Finset.sum_eq_single i, Finset.sum_eq_single j]
    · rw [if_pos, if_pos]
      · rw [rx, ry]
        exact ⟨c1, c2⟩
      · unfold CornerMpi Antidiagonal
        simp
    · intro b hb hne
      exact zero k i b hk hi (Finset.mem_range.mp hb) (fun h => hne h.2.2) _
    · intro h; exact absurd (Finset.mem_range.mpr hj) h
    · intro a ha hne
      exact Finset.sum_eq_zero fun b hb => zero k a b hk (Finset.mem_range.mp ha) (Finset.mem_range.mp hb) (fun h => hne h.2.1) _
    · intro h; exact absurd (Finset.mem_range.mpr hi) h
    · intro l hl hne
      exact Finset.sum_eq_zero fun a ha => Finset.sum_eq_zero fun b hb =>
        zero l a b (Finset.mem_range.mp hl) (Finset.mem_range.mp ha) (Finset.mem_range.mp hb) (fun h => hne h.1) _
    · intro h; exact absurd (Finset.mem_range.mpr hk) h

/-- C99, Villasenor–Buneman scheme, radial and axial currents: if no path cuts a corner, and none starts exactly on the outer
border of the cell where it ends, they are in every cell those of the undivided area with the particles of all processes. -/
theorem C99_vb_partial (p : Par K) {procs domR domZ : Nat} (cap : Nat) (S : Slabs p procs domR domZ) (e : Consts K)
    (hx : (ctxOf p 0 e).Good) (ps : Nat → Nat → Nat → List (VB.Part K)) (hp : HousedMpi p procs domR domZ e ps)
    (hs : SlantedMpi e.mnzl procs domR domZ ps)
    (hk : ∀ l a b, l < procs → a < domR → b < domZ → ∀ q ∈ ps l a b, ¬ CutsCornerMpi p procs domR domZ l a b q)
    (hr : ∀ l a b, l < procs → a < domR → b < domZ → ∀ q ∈ ps l a b, q.rOld ≠ ((⌊q.r / p.dr⌋ : K) + 1) * p.dr)
    (qs : List (VB.Part K)) (hqs : qs.Perm (partsOfMpi procs domR domZ (fun _ _ _ => true) ps)) (M : Nat → Solvers K) (m : Mem K) :
    ∃ m', VB.currentDistribution (ctxOf p 0 e) qs (resetCurrent (ctxOf p 0 e).g m) = .ok m' ∧
      (∀ M', CurrentMpi VB.currentDistribution p procs domR domZ cap e ps M M' → ∀ k i j c x y, c = .jr ∨ c = .jz →
        CellOfMpi p procs domR domZ k i j x y → M' k i j c x y = m' c (rowOf p domR i x) (colOf p procs domZ k j y)) ∧
      (domR ≤ cap → ∃ M', CurrentMpi VB.currentDistribution p procs domR domZ cap e ps M M') := by
  obtain ⟨w, ex⟩ := C99_vb_exact_partial p cap S e hx ps hp hs M m
  have ok : ∀ keep, ∀ q ∈ partsOfMpi procs domR domZ keep ps, q.Bound (ctxOf p 0 e).g ∧ q.NearCell (ctxOf p 0 e).g ∧
      ((ctxOf p 0 e).mnzl ≤ |q.r - q.rOld| ∨ |q.z - q.zOld| < (ctxOf p 0 e).mnzl) := by
    intro keep q hq
    obtain ⟨l, a, b, hl, ha, hb, _, h⟩ := mem_partsOfMpi.mp hq
    have := hp l a b hl ha hb q h
    exact ⟨mpi_bound S e hx hl ha hb this.1, mpi_near S e this.2, hs l hl a b ha hb q h⟩
  obtain ⟨m', e2, v, _⟩ := vb_run (ctxOf p 0 e) hx qs (fun q hq => ok _ q (hqs.mem_iff.mp hq)) m
  refine ⟨m', e2, ?_, ex⟩
  intro M' hM k i j c x y hc hcell
  obtain ⟨m1, e3, w1⟩ := (w M' hM k hcell.1).2.1 i j hcell.2.1 hcell.2.2.1 _ (List.Perm.refl _)
  obtain ⟨m2, e4, v2, _⟩ := vb_run (ctxOf p 0 e) hx _ (ok fun l a b => !CornerMpi domZ k i j l a b) m
  obtain rfl := Res.ok.inj (e3.symm.trans e4)
  rw [w1 c x y hc hcell, v2 c hc _ _ (mpi_cell_inside S e hcell), v c hc _ _ (mpi_cell_inside S e hcell), (hqs.map _).sum_eq,
    sum_partsOfMpi, sum_partsOfMpi]
  refine Finset.sum_congr rfl fun l hl => Finset.sum_congr rfl fun a ha => Finset.sum_congr rfl fun b hb => ?_
  rw [if_pos rfl]
  cases han : CornerMpi domZ k i j l a b with
  | false => rfl
  | true =>
    refine Eq.symm (List.sum_eq_zero fun v hv => ?_)
    obtain ⟨q, hq, rfl⟩ := List.mem_map.mp hv
    have hl := Finset.mem_range.mp hl
    have ha := Finset.mem_range.mp ha
    have hb := Finset.mem_range.mp hb
    obtain ⟨h1, h2, h3⟩ := ok (fun _ _ _ => true) q (mem_partsOfMpi.mpr ⟨l, a, b, hl, ha, hb, rfl, hq⟩)
    exact vb_support _ hx q h1 h2 h3 (hr l a b hl ha hb q hq) c _ _
      (corner_clear_mpi S e hx hl ha hb hcell han (hp l a b hl ha hb q hq).1 (hk l a b hl ha hb q hq))

/-! ## What is lost -/

/-- One particle in domain `(a, b)` of process `l`, none elsewhere. -/
def lonePartMpi (l a b : Nat) (q : VB.Part K) (k i j : Nat) : List (VB.Part K) := if k = l ∧ i = a ∧ j = b then [q] else []

/-- C99 fails at the corners of the borders between processes, also at those corners that a single process takes into account: a
particle in the last cell of the last domain column of process `l`, in domain row `a`, that gyrates leaves a part of its azimuthal
current in the first cell of domain row `a + 1` of the next process.  In the undivided area this current is there; after the step
of the processes the cell is empty. -/
theorem C99_corner_fails (p : Par K) {procs domR domZ : Nat} (cap : Nat) (S : Slabs p procs domR domZ) (e : Consts K)
    (hx : (ctxOf p 0 e).Good) (l a : Nat) (hl : l + 1 < procs) (ha : a + 1 < domR) (q : VB.Part K)
    (hq : q.Bound (mpiCtx p procs domR domZ e l a (domZ-1)).g) (hs : q.SameCell (mpiCtx p procs domR domZ e l a (domZ-1)).g)
    (hi : ⌊q.r / p.dr⌋ + 1 = (p.r0 : Int) + low p.nr domR (a+1)) (hk : ⌊q.z / p.dz⌋ + 1 = (((l + 1) * slabLen p procs : Nat) : Int))
    (hr : (⌊q.r / p.dr⌋ : K) * p.dr < q.r) (hz : (⌊q.z / p.dz⌋ : K) * p.dz < q.z) (h0 : q.q ≠ 0) (hv : q.vphi ≠ 0)
    (M M' : Nat → Solvers K) (m : Mem K)
    (hM : CurrentMpi ZigZag.currentDistribution p procs domR domZ cap e (lonePartMpi l a (domZ-1) q) M M') :
    CellOfMpi p procs domR domZ (l+1) (a+1) 0 0 0 ∧ M' (l+1) (a+1) 0 .jp 0 0 = 0 ∧
      ∃ m', ZigZag.currentDistribution (ctxOf p 0 e) [q] (resetCurrent (ctxOf p 0 e).g m) = .ok m' ∧
        m' .jp (rowOf p domR (a+1) 0) (colOf p procs domZ (l+1) 0 0) ≠ 0 := by
  have hz1 := S.hd.z1
  have hn : q.NearCell (mpiCtx p procs domR domZ e l a (domZ-1)).g := by
    have h1 := hs.1
    have h2 := hs.2
    unfold Part.NearCell
    omega
  have dr : 0 < p.dr := hx.geo.dr
  have dz : 0 < p.dz := hx.geo.dz
  have hc : CellOfMpi p procs domR domZ (l+1) (a+1) 0 0 0 := by
    have b1 : 2 ≤ hgt p.nr domR (a+1) := (S.hd.bounds ha hz1).1.1
    have b2 : 2 ≤ hgt (slabLen p procs) domZ 0 := (S.hd.bounds ha hz1).2.1
    unfold CellOfMpi
    omega
  have house : HousedMpi p procs domR domZ e (lonePartMpi l a (domZ-1) q) := by
    intro k i j _ _ _ s hs'
    unfold lonePartMpi at hs'
    split at hs'
    · rename_i h
      obtain ⟨rfl, rfl, rfl⟩ := h
      obtain rfl := List.mem_singleton.mp hs'
      exact ⟨hq, hn⟩
    · simp at hs'
  have hw := mpi_bound S e hx (show l < procs by omega) (show a < domR by omega) (show domZ - 1 < domZ by omega) hq
  obtain ⟨w, _⟩ := C99_zigzag_exact_partial p cap S e hx _ house M m
  refine ⟨hc, ?_, ?_⟩
  · have emp : partsOfMpi procs domR domZ (fun u i j => !CornerMpi domZ (l+1) (a+1) 0 u i j) (lonePartMpi l a (domZ-1) q) = [] := by
      refine List.eq_nil_iff_forall_not_mem.mpr fun s hs' => ?_
      obtain ⟨u, i, j, _, _, _, h1, h2⟩ := mem_partsOfMpi.mp hs'
      unfold lonePartMpi at h2
      split at h2
      · rename_i k
        obtain ⟨rfl, rfl, rfl⟩ := k
        have : CornerMpi domZ (u+1) (i+1) 0 u i (domZ-1) = true :=
          decide_eq_true (Or.inr ⟨Or.inr ⟨rfl, rfl, by omega⟩, Or.inr rfl⟩)
        rw [this] at h1
        exact absurd h1 (by decide)
      · simp at h2
    obtain ⟨m1, e3, w1⟩ := (w M' hM (l+1) hl).2 (a+1) 0 ha hz1 [] (by rw [emp])
    rw [w1 .jp _ _ (Or.inr (Or.inl rfl)) hc]
    exact zz_none _ m e3 .jp (Or.inr (Or.inl rfl)) _ _ (mpi_cell_inside S e hc)
  · obtain ⟨m', e2, v, _⟩ := zz_run (ctxOf p 0 e) hx [q] (fun s hs' => by
      obtain rfl := List.mem_singleton.mp hs'
      exact ⟨hw, mpi_near S e hn⟩) m
    refine ⟨m', e2, ?_⟩
    rw [v .jp (Or.inr (Or.inl rfl)) _ _ (mpi_cell_inside S e hc), List.map_singleton, List.sum_singleton]
    unfold zz
    have c1 : rowOf p domR (a+1) 0 = ⌊q.r / p.dr⌋ + 1 - p.r0 := by unfold rowOf; omega
    have c2 : colOf p procs domZ (l+1) 0 0 = ⌊q.z / p.dz⌋ + 1 := by
      rw [hk]
      unfold colOf
      rw [S.low_z]
      push_cast
      ring
    rw [c1, c2]
    show tot (ZigZag.cellOps (ctxOf p 0 e) q ⌊q.r / p.dr⌋ ⌊q.rOld / p.dr⌋ ⌊q.z / p.dz⌋ ⌊q.zOld / p.dz⌋ ⌊(q.r + q.rOld) / 2 / p.dr⌋) .jp _ _ ≠ 0
    have s1 : ⌊q.rOld / p.dr⌋ = ⌊q.r / p.dr⌋ := by have := hs.1; rwa [mpiCtx_eq S] at this
    have s2 : ⌊q.zOld / p.dz⌋ = ⌊q.z / p.dz⌋ := by have := hs.2; rwa [mpiCtx_eq S] at this
    have fr := floor_cell dr q.r
    have fro := floor_cell dr q.rOld
    have fz := floor_cell dz q.z
    have fzo := floor_cell dz q.zOld
    have iM : 0 ≤ ⌊(q.r + q.rOld) / 2 / p.dr⌋ :=
      Int.floor_nonneg.mpr (div_nonneg (by linarith [hw.rpos, hw.rOldPos]) dr.le)
    have iM : (0 : K) ≤ (⌊(q.r + q.rOld) / 2 / p.dr⌋ : K) := by exact_mod_cast iM
    generalize ⌊(q.r + q.rOld) / 2 / p.dr⌋ = im at iM ⊢
    rw [s1] at fro ⊢
    rw [s2] at fzo ⊢
    generalize ⌊q.r / p.dr⌋ = i at *
    generalize ⌊q.z / p.dz⌋ = k at *
    have rel : ZigZag.relayPoint i i q.rOld q.r p.dr = (q.rOld + q.r) / 2 := ZigZag.relay_same fro fr
    have relz : ZigZag.relayPoint k k q.zOld q.z p.dz = (q.zOld + q.z) / 2 := ZigZag.relay_same fzo fz
    have val : tot (ZigZag.cellOps (ctxOf p 0 e) q i i k k im) .jp (i + 1 - p.r0) (k + 1) =
        1 / cellVolume e.pi (im : K) p.dr p.dz * (q.q * q.vphi) * ((q.r + (q.rOld + q.r) / 2) / 2 - (i : K) * p.dr) *
          ((q.z + (q.zOld + q.z) / 2) / 2 - (k : K) * p.dz) := by
      unfold ZigZag.cellOps
      simp only [tot_cons, tot_nil, Op.val, ctxOf, rel, relz, reduceCtorEq, false_and, if_false, add_zero, zero_add, true_and]
      rw [if_neg (show ¬ (i + 1 - (p.r0 : Int) = i - p.r0 ∧ k + 1 = k - ((0 : Nat) : Int)) by omega),
        if_neg (show ¬ (i + 1 - (p.r0 : Int) = i - p.r0 ∧ k + 1 = k - ((0 : Nat) : Int) + 1) by omega),
        if_neg (show ¬ (i + 1 - (p.r0 : Int) = i - p.r0 + 1 ∧ k + 1 = k - ((0 : Nat) : Int)) by omega),
        if_pos (show i + 1 - (p.r0 : Int) = i - p.r0 + 1 ∧ k + 1 = k - ((0 : Nat) : Int) + 1 by omega)]
      ring
    rw [val]
    have vol : 0 < cellVolume e.pi (im : K) p.dr p.dz := by
      have pi : 0 < e.pi := hx.pi
      unfold cellVolume
      positivity
    refine mul_ne_zero (mul_ne_zero (mul_ne_zero (div_ne_zero one_ne_zero vol.ne') (mul_ne_zero h0 hv)) ?_) ?_
    · exact (show (0 : K) < _ by linarith [fro.1]).ne'
    · exact (show (0 : K) < _ by linarith [fzo.1]).ne'

/-! ## Non-vacuity: an area of 4 × 4 cells in 2 processes of 2 × 1 domains -/

theorem ex_mpi_slabs : Slabs exArea 2 2 1 :=
  ⟨by decide, by decide, by decide, by decide,
    ⟨by decide, by decide, by decide, by decide, by decide, by decide, by decide, by decide, by decide⟩⟩

/-- One particle in every domain; three of them have crossed a border, two of these the border between the processes. -/
def exMpiHoused (k a b : Nat) : List (VB.Part ℚ) := if b = 0 then exHoused a k else []

theorem exMpiHoused_ok : HousedMpi exArea 2 2 1 exConsts exMpiHoused := by
  intro k a b hk ha hb q hq
  rw [mpiCtx_eq ex_mpi_slabs]
  obtain rfl : b = 0 := by omega
  obtain rfl | rfl : a = 0 ∨ a = 1 := by omega
  all_goals obtain rfl | rfl : k = 0 ∨ k = 1 := by omega
  all_goals
    obtain rfl := List.mem_singleton.mp hq
    refine ⟨⟨⟨?_, ?_, ?_, ?_⟩, ?_, ?_, ?_, ?_⟩, ?_⟩ <;>
      simp only [Part.NearCell, Ctx.part, ctxOf, exArea] <;> decide +kernel

example : SlantedMpi exConsts.mnzl 2 2 1 exMpiHoused := by
  intro k hk a b ha hb q hq
  obtain rfl : b = 0 := by omega
  obtain rfl | rfl : a = 0 ∨ a = 1 := by omega
  all_goals obtain rfl | rfl : k = 0 ∨ k = 1 := by omega
  all_goals
    obtain rfl := List.mem_singleton.mp hq
    simp only [exConsts]
    decide +kernel

/-- Particles of which none cuts a corner: one crosses the border between the processes, one the border between the domain rows. -/
def exMpiClear (k a b : Nat) : List (VB.Part ℚ) :=
  match k, a, b with
  | 1, 0, 0 => [⟨1/2, 21/10, 4/10, 19/10, 1, 0, 2, -2⟩]
  | 0, 1, 0 => [⟨21/10, 1/2, 19/10, 1/2, 1, 2, 0, 1⟩]
  | _, _, _ => []

example : HousedMpi exArea 2 2 1 exConsts exMpiClear := by
  intro k a b hk ha hb q hq
  rw [mpiCtx_eq ex_mpi_slabs]
  obtain rfl : b = 0 := by omega
  obtain rfl | rfl : a = 0 ∨ a = 1 := by omega
  all_goals obtain rfl | rfl : k = 0 ∨ k = 1 := by omega
  all_goals first
    | exact absurd hq (List.not_mem_nil)
    | obtain rfl := List.mem_singleton.mp hq
      refine ⟨⟨⟨?_, ?_, ?_, ?_⟩, ?_, ?_, ?_, ?_⟩, ?_⟩ <;>
        simp only [Part.NearCell, Ctx.part, ctxOf, exArea] <;> decide +kernel

example : ∀ l a b, l < 2 → a < 2 → b < 1 → ∀ q ∈ exMpiClear l a b, ¬ CutsCornerMpi exArea 2 2 1 l a b q ∧
    q.rOld ≠ ((⌊q.r / exArea.dr⌋ : ℚ) + 1) * exArea.dr := by
  intro k a b hk ha hb q hq
  obtain rfl : b = 0 := by omega
  obtain rfl | rfl : a = 0 ∨ a = 1 := by omega
  all_goals obtain rfl | rfl : k = 0 ∨ k = 1 := by omega
  all_goals first
    | exact absurd hq (List.not_mem_nil)
    | obtain rfl := List.mem_singleton.mp hq
      simp only [CutsCornerMpi, LeavesRow, LeavesSlab, exArea]
      decide +kernel

/-- A particle in the last cell of domain row 0 of process 0. -/
def exMpiEdge : VB.Part ℚ := ⟨19/10, 19/10, 18/10, 18/10, 1, 1, 1, 1⟩

/-- The hypotheses of `C99_corner_fails`. -/
example : exMpiEdge.Bound (mpiCtx exArea 2 2 1 exConsts 0 0 0).g ∧ exMpiEdge.SameCell (mpiCtx exArea 2 2 1 exConsts 0 0 0).g ∧
    ⌊exMpiEdge.r / exArea.dr⌋ + 1 = (exArea.r0 : Int) + low exArea.nr 2 1 ∧
    ⌊exMpiEdge.z / exArea.dz⌋ + 1 = (((0 + 1) * slabLen exArea 2 : Nat) : Int) ∧
    (⌊exMpiEdge.r / exArea.dr⌋ : ℚ) * exArea.dr < exMpiEdge.r ∧ (⌊exMpiEdge.z / exArea.dz⌋ : ℚ) * exArea.dz < exMpiEdge.z ∧
    exMpiEdge.q ≠ 0 ∧ exMpiEdge.vphi ≠ 0 := by
  rw [mpiCtx_eq ex_mpi_slabs]
  refine ⟨⟨⟨?_, ?_, ?_, ?_⟩, ?_, ?_, ?_, ?_⟩, ?_⟩ <;>
    simp only [exMpiEdge, Part.SameCell, Ctx.part, ctxOf, exArea] <;> decide +kernel

/-- The step of the processes exists from every state. -/
example (M : Nat → Solvers ℚ) : ∃ M', CurrentMpi ZigZag.currentDistribution exArea 2 2 1 8 exConsts exMpiHoused M M' :=
  (C99_zigzag_exact_partial exArea 8 ex_mpi_slabs exConsts ex_area_good exMpiHoused exMpiHoused_ok M (M 0 0 0)).2 (by decide)

end Yee
end Pico
