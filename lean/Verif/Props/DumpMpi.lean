import Verif.Model.DumpMpi
import Verif.Props.Dump

/-! # C94 — what a density probe shows with several processes -/

set_option linter.unusedSimpArgs false
set_option linter.unusedVariables false

namespace Pico
namespace Dump

open Maps SMB

theorem slab_lt {procs m k j : Nat} (hk : k < procs) (hj : j < m) : k * m + j < procs * m := by
  have : (k + 1) * m ≤ procs * m := Nat.mul_le_mul_right m hk
  rw [Nat.succ_mul] at this
  omega

theorem slab_good {W : World} (h : W.Good) {procs m k : Nat} (hz : W.nz = procs * m) (hk : k < procs) :
    (W.slab m k).Good := by
  refine ⟨h.dr, h.dz, h.rows, ?_, h.fitR, ?_, h.par, ?_⟩
  · intro j hj
    exact h.cols (k * m + j) (by rw [hz]; exact slab_lt hk hj)
  · intro j hj
    exact h.fitZ (k * m + j) (by rw [hz]; exact slab_lt hk hj)
  · intro s i j hi hj p hp
    exact h.inside s i (k * m + j) hi (by rw [hz]; exact slab_lt hk hj) p hp

theorem slab_part (W : World) (m k s : Nat) (X Y : Int) (i j : Nat) :
    part (W.slab m k) s X Y (i, j) = part W s X Y (i, k * m + j) := rfl

/-- The density of the particles of one process, at a cell of the process. -/
theorem slab_true {W : World} (h : W.Good) {procs m k : Nat} (hz : W.nz = procs * m) (hk : k < procs) {s i j : Nat}
    (hi : i < W.nr) (hj : j < m) {x y : Int} (hx0 : 0 ≤ x) (hx : x < W.xs i) (hy0 : 0 ≤ y)
    (hy : y < W.ys (k * m + j)) :
    W.trueDens s (x + W.offR i) (y + W.offZ (k * m + j)) =
      (W.slab m k).trueDens s (x + W.offR i) (y + W.offZ (k * m + j)) +
      (if 0 < k ∧ j = 0 ∧ y = 0 then part W s (x + W.offR i) (y + W.offZ (k * m + j)) (i, k * m - 1) +
        (if 0 < i ∧ x = 0 then part W s (x + W.offR i) (y + W.offZ (k * m + j)) (i-1, k * m - 1) else 0) else 0) := by
  have t1 := true_split h (s := s) hi (j := k * m + j) (by rw [hz]; exact slab_lt hk hj) hx0 hx hy0 hy
  have t2 := true_split (slab_good h hz hk) (s := s) (i := i) (j := j) hi hj hx0 hx hy0 hy
  rw [slab_part, slab_part, slab_part, slab_part] at t2
  have e1 : (W.slab m k).offR i = W.offR i := rfl
  have e2 : (W.slab m k).offZ j = W.offZ (k * m + j) := rfl
  rw [e1, e2] at t2
  rw [t1, t2]
  have hm : 0 < m := by omega
  by_cases c1 : 0 < j
  · have e3 : k * m + (j - 1) = k * m + j - 1 := by omega
    rw [e3]
    have c2 : 0 < k * m + j := by omega
    simp only [c1, c2, true_and]
    rw [if_neg (show ¬ (0 < k ∧ j = 0 ∧ y = 0) by omega)]
    ring
  · have c3 : j = 0 := by omega
    subst c3
    by_cases c4 : 0 < k
    · have c5 : 0 < k * m + 0 := by rw [Nat.add_zero]; exact Nat.mul_pos c4 hm
      have e4 : k * m + 0 - 1 = k * m - 1 := by omega
      rw [e4]
      by_cases c6 : y = 0
      · rw [if_pos (show 0 < k * m + 0 ∧ y = 0 from ⟨c5, c6⟩), if_pos (show 0 < k ∧ 0 = 0 ∧ y = 0 from ⟨c4, rfl, c6⟩),
          if_neg (show ¬ (0 < 0 ∧ y = 0) by omega), if_neg (show ¬ ((0 < i ∧ x = 0) ∧ 0 < 0 ∧ y = 0) by omega)]
        by_cases c8 : 0 < i ∧ x = 0
        · rw [if_pos c8, if_pos c8, if_pos (show (0 < i ∧ x = 0) ∧ 0 < k * m + 0 ∧ y = 0 from ⟨c8, c5, c6⟩)]
          ring
        · rw [if_neg c8, if_neg c8, if_neg (fun z : (0 < i ∧ x = 0) ∧ 0 < k * m + 0 ∧ y = 0 => c8 z.1)]
          ring
      · rw [if_neg (fun z : 0 < k * m + 0 ∧ y = 0 => c6 z.2), if_neg (fun z : 0 < k ∧ 0 = 0 ∧ y = 0 => c6 z.2.2),
          if_neg (fun z : 0 < 0 ∧ y = 0 => c6 z.2), if_neg (fun z : (0 < i ∧ x = 0) ∧ 0 < 0 ∧ y = 0 => c6 z.2.2),
          if_neg (fun z : (0 < i ∧ x = 0) ∧ 0 < k * m + 0 ∧ y = 0 => c6 z.2.2)]
        ring
    · have c7 : k = 0 := by omega
      subst c7
      simp only [Nat.zero_mul, lt_irrefl, false_and, and_false, if_false, add_zero]

/-! ### Theorems -/

/-- **C94 (partial).**  The run is split among `procs` processes, each with `m` columns of domains; the last probe of process
`k` that has the maps of the species prepared is a density probe.  Then the density probe shows in every domain of process
`k` the density of all particles of the run, except in the first column of cells of the process (for `k > 0`) and at the
corner cells of C88. -/
theorem C94_inside_partial (W : World) (h : W.Good) (procs m k : Nat) (hz : W.nz = procs * m) (hk : k < procs)
    (pre post : List Probe) (q : Probe) (S : Nat → SMaps)
    (hS : AllGood (W.slab m k) S) {s : Nat} (hq : lookup W.names q.specie = some s) (hd : q.comp = .density)
    (hpost : ∀ p ∈ post, ¬ Prepares W s p) :
    ∃ S', prepare (W.slab m k) (pre ++ q :: post) S = .ok S' ∧ ∀ i j, i < W.nr → j < m → ∀ x y : Int,
      0 ≤ x → x < W.xs i → 0 ≤ y → y < W.ys (k * m + j) → ¬ ((0 < i ∧ x = 0) ∧ 0 < j ∧ y = 0) →
      ¬ (0 < k ∧ j = 0 ∧ y = 0) →
      shown S' s i j x y = .ok (W.trueDens s (x + W.offR i) (y + W.offZ (k * m + j))) := by
  obtain ⟨S', e, v⟩ := C88_density_partial (W.slab m k) (slab_good h hz hk) pre post q S hS hq hd hpost
  refine ⟨S', e, ?_⟩
  intro i j hi hj x y hx0 hx hy0 hy hn1 hn2
  rw [v i j hi hj x y hx0 hx hy0 hy hn1, slab_true h hz hk hi hj hx0 hx hy0 hy, if_neg hn2, add_zero]
  rfl

/-- **The border between processes.**  In the first column of a process what the particles of the process before give
is missing. -/
theorem C94_border (W : World) (h : W.Good) (procs m k : Nat) (hm : 0 < m) (hz : W.nz = procs * m) (hk0 : 0 < k)
    (hk : k < procs) (pre post : List Probe) (q : Probe) (S : Nat → SMaps)
    (hS : AllGood (W.slab m k) S) {s : Nat} (hq : lookup W.names q.specie = some s) (hd : q.comp = .density)
    (hpost : ∀ p ∈ post, ¬ Prepares W s p) :
    ∃ S', prepare (W.slab m k) (pre ++ q :: post) S = .ok S' ∧ ∀ i, i < W.nr → ∀ x : Int, 0 < x → x < W.xs i →
      shown S' s i 0 x 0 = .ok (W.trueDens s (x + W.offR i) (W.offZ (k * m)) -
        dens (W.par s) W.whole (W.parts s i (k * m - 1)) (x + W.offR i) (W.offZ (k * m))) := by
  obtain ⟨S', e, v⟩ := C88_density_partial (W.slab m k) (slab_good h hz hk) pre post q S hS hq hd hpost
  refine ⟨S', e, ?_⟩
  intro i hi x hx0 hx
  have hc : k * m + 0 < W.nz := by rw [hz]; exact slab_lt hk hm
  have hy : (0 : Int) < W.ys (k * m + 0) := by have := h.cols _ hc; unfold World.ys; omega
  rw [v i 0 hi hm x 0 hx0.le hx le_rfl hy (by omega)]
  have t := slab_true h hz hk (s := s) hi hm (x := x) (y := 0) hx0.le hx le_rfl hy
  rw [if_pos ⟨hk0, rfl, rfl⟩, if_neg (show ¬ (0 < i ∧ x = 0) by omega), Nat.add_zero, zero_add, add_zero] at t
  rw [t]
  have e1 : (W.slab m k).offR i = W.offR i := rfl
  have e2 : (W.slab m k).offZ 0 = W.offZ (k * m) := rfl
  rw [e1, e2, zero_add]
  unfold part
  congr 1
  ring

/-- **Too little at the border.**  One particle in the last column of a process is enough: the density shown at the next
cell, in the first column of the next process, is smaller than the density. -/
theorem C94_border_fails (W : World) (h : W.Good) (procs m k : Nat) (hm : 0 < m) (hz : W.nz = procs * m) (hk0 : 0 < k)
    (hk : k < procs) (pre post : List Probe) (q : Probe) (S : Nat → SMaps)
    (hS : AllGood (W.slab m k) S) (hS0 : ∃ S0, AllGood W S0) {s : Nat} (hq : lookup W.names q.specie = some s)
    (hd : q.comp = .density)
    (hpost : ∀ p ∈ post, ¬ Prepares W s p) {i x : Nat} (hi : i < W.nr) (hx : x + 1 < W.xs i)
    (hw : ∀ p ∈ W.parts s i (k * m - 1), 0 ≤ p.w) {p : VP} (hp : p ∈ W.parts s i (k * m - 1)) (wp : 0 < p.w)
    (ra : ((W.offR i + x : Nat) : ℝ) * W.dr < p.r) (ra' : p.r < ((W.offR i + x : Nat) + 1 : ℝ) * W.dr)
    (zb : ((W.offZ (k * m) - 1 : Nat) : ℝ) * W.dz < p.z) :
    ∃ S' v, prepare (W.slab m k) (pre ++ q :: post) S = .ok S' ∧ shown S' s i 0 (x + 1) 0 = .ok v ∧
      v < W.trueDens s (x + 1 + W.offR i) (W.offZ (k * m)) := by
  obtain ⟨S', e, v⟩ := C94_border W h procs m k hm hz hk0 hk pre post q S hS hq hd hpost
  obtain ⟨S0, hS0⟩ := hS0
  refine ⟨S', _, e, v i hi (x + 1) (by omega) (by omega), ?_⟩
  have hc : k * m + 0 < W.nz := by rw [hz]; exact slab_lt hk hm
  have hkm : 0 < k * m := Nat.mul_pos hk0 hm
  have C := h.inside s i (k * m - 1) hi (by omega) p hp
  have c := h.cols (k * m - 1) (by omega)
  have e0 : k * m - 1 + 1 = k * m := by omega
  have b1 : p.z < (((W.offZ (k * m) - 1 : Nat) : ℝ) + 1) * W.dz := by
    have := C.zhi
    have e1 : (W.geo i (k * m - 1)).z0 + (W.geo i (k * m - 1)).nz = (W.offZ (k * m) - 1) + 1 := by
      simp only [World.geo, e0] at c ⊢; omega
    rw [e1] at this
    push_cast at this ⊢
    exact this
  have key := (part_pos h S0 hS0 hi (by omega) hw hp wp ra ra' zb b1).2
  rw [e0] at c
  have e1 : ((W.offR i + x : Nat) : Int) + 1 = x + 1 + W.offR i := by push_cast; ring
  have e2 : ((W.offZ (k * m) - 1 : Nat) : Int) + 1 = W.offZ (k * m) := by omega
  rw [e1, e2] at key
  unfold part at key
  linarith

/-! ### Examples -/

/-- The world of C88 as one column of domains per process. -/
theorem exSlab_good : AllGood (exWorld.slab 1 1) fun _ _ _ => exMaps := by
  intro s i j hi hj
  have g : ((exWorld.slab 1 1).geo i j).MapOf exGrid := by
    refine ⟨by constructor <;> norm_num [exGrid, Grid.xr, Grid.yr], ?_, ?_, by norm_num [exGrid]⟩
    · simp only [exGrid, World.geo, World.slab, exWorld]
      omega
    · simp only [exGrid, World.geo, World.slab, exWorld]
      omega
  exact ⟨⟨g, g, ⟨g, g, g⟩, ⟨g, g, g⟩, g, g⟩, rfl, rfl, rfl, rfl, rfl, rfl⟩

/-- An electron in the first row and last column of the first process. -/
noncomputable def exWorld2 : World :=
  { exWorld with parts := fun s i j => if i = 0 ∧ j = 0 then [⟨1/2, 3/2, 1, 1, 2, 1⟩] else [] }

theorem exWorld2_good : exWorld2.Good := by
  refine ⟨exWorld_good.dr, exWorld_good.dz, exWorld_good.rows, exWorld_good.cols, exWorld_good.fitR, exWorld_good.fitZ,
    exWorld_good.par, ?_⟩
  intro s i j hi hj p hp
  simp only [exWorld2] at hp
  split at hp
  · next e =>
    rw [List.mem_singleton.mp hp, e.1, e.2]
    constructor <;> norm_num [World.geo, exWorld2, exWorld]
  · cases hp

example : ∃ S' v, prepare (exWorld2.slab 1 1) [⟨.density, ['e']⟩] (fun _ _ _ => exMaps) = .ok S' ∧
    shown S' 0 0 0 ((0 : Nat) + 1) 0 = .ok v ∧ v < exWorld2.trueDens 0 ((0 : Nat) + 1 + exWorld2.offR 0) (exWorld2.offZ (1 * 1)) := by
  refine C94_border_fails exWorld2 exWorld2_good 2 1 1 (by decide) rfl (by decide) (by decide) [] [] ⟨.density, ['e']⟩ _
    exSlab_good ⟨_, exMaps_good⟩ (s := 0) (by decide) rfl (by intro p hp; cases hp) (i := 0) (x := 0) (by decide) (by decide) ?_
    (p := ⟨1/2, 3/2, 1, 1, 2, 1⟩) ?_ ?_ ?_ ?_ ?_
  · intro p hp
    have hp' : p ∈ [(⟨1/2, 3/2, 1, 1, 2, 1⟩ : VP)] := hp
    rw [List.mem_singleton.mp hp']
    norm_num
  · exact List.mem_singleton.mpr rfl
  all_goals norm_num [exWorld2, exWorld]

-- one process: the second exception of `C94_inside_partial` never applies
example (W : World) (h : W.Good) (q : Probe) (S : Nat → SMaps) (hS : AllGood (W.slab W.nz 0) S) {s : Nat}
    (hq : lookup W.names q.specie = some s) (hd : q.comp = .density) :=
  C94_inside_partial W h 1 W.nz 0 (by omega) (by decide) [] [] q S hS hq hd (by intro p hp; cases hp)

end Dump
end Pico
