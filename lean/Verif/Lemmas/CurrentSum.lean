import Verif.Lemmas.CurrentPath

set_option linter.unusedSimpArgs false
set_option linter.unusedVariables false
set_option linter.unusedSectionVars false

namespace Pico
namespace VB

open Yee

variable {K : Type _} [Field K] [LinearOrder K] [IsStrictOrderedRing K] [FloorRing K]

/-! ### The deposits of all particles add up -/

/-- What one particle deposits. -/
def depositBy (x : Ctx K) (p : Part K) (c : Comp) (i k : Int) : K :=
  match rzOps x p with
  | .ok ops => tot ops c i k
  | _ => 0

theorem loop_deposits (x : Ctx K) (ps : List (Part K))
    (h : ∀ p ∈ ps, ∃ ops, rzOps x p = .ok ops ∧ ∀ o ∈ ops, o.Inc x.g) (m : Mem K) :
    ∃ m', loop (rzParticle x) ps m = .ok m' ∧
      ∀ c i k, m' c i k = m c i k + (ps.map (fun p => depositBy x p c i k)).sum := by
  induction ps generalizing m with
  | nil => exact ⟨m, rfl, fun c i k => by simp⟩
  | cons p l ih =>
    obtain ⟨ops, e, hi⟩ := h p (by simp)
    obtain ⟨m1, e1, v1⟩ := runOps_inc x.g ops hi m
    obtain ⟨m2, e2, v2⟩ := ih (fun q hq => h q (by simp [hq])) m1
    refine ⟨m2, ?_, ?_⟩
    · rw [loop_cons]
      unfold rzParticle
      rw [e, Res.ok_bind, e1, Res.ok_bind]
      exact e2
    · intro c i k
      rw [v2, v1]
      simp only [List.map_cons, List.sum_cons, depositBy, e]
      ring

theorem azimuthalOps_inc (x : Ctx K) (hx : x.Good) (p : Part K) (hb : p.Bound x.g) :
    ∀ o ∈ azimuthalOps x p, o.Inc x.g := by
  obtain ⟨h1, h2, h3, h4⟩ := bound_cells hx.geo hb
  intro o ho
  unfold azimuthalOps at ho
  dsimp only at ho
  rw [hb.cellR, hb.cellZ] at ho
  simp only [List.mem_cons, List.not_mem_nil, or_false] at ho
  rcases ho with rfl | rfl | rfl | rfl <;> (unfold Op.Inc insideG; dsimp only; omega)

theorem azimuthalOps_tot (x : Ctx K) (p : Part K) (c : Comp) (hc : c ≠ .jp) (i k : Int) :
    tot (azimuthalOps x p) c i k = 0 := by
  unfold azimuthalOps
  simp [tot_cons, tot_nil, Op.val, hc]

theorem loop_azimuthal (x : Ctx K) (hx : x.Good) (ps : List (Part K)) (h : ∀ p ∈ ps, p.Bound x.g) (m : Mem K) :
    ∃ m', loop (fun p m => runOps x.g (azimuthalOps x p) m) ps m = .ok m' ∧
      ∀ c i k, m' c i k = m c i k + (ps.map (fun p => tot (azimuthalOps x p) c i k)).sum := by
  induction ps generalizing m with
  | nil => exact ⟨m, rfl, fun c i k => by simp⟩
  | cons p l ih =>
    obtain ⟨m1, e1, v1⟩ := runOps_inc x.g _ (azimuthalOps_inc x hx p (h p (by simp))) m
    obtain ⟨m2, e2, v2⟩ := ih (fun q hq => h q (by simp [hq])) m1
    refine ⟨m2, ?_, ?_⟩
    · rw [loop_cons, e1, Res.ok_bind]
      exact e2
    · intro c i k
      rw [v2, v1]
      simp only [List.map_cons, List.sum_cons]
      ring

/-! ### Every motion that is not axial consists of increments inside the grid -/

theorem switch_inc (x : Ctx K) (p : Part K) {i k j l : Int}
    (di : (x.g.r0 : Int) ≤ i ∧ i < (x.g.r0 : Int) + x.g.nr) (dk : (x.g.z0 : Int) ≤ k ∧ k < (x.g.z0 : Int) + x.g.nz) :
    ∀ o ∈ switchOps x p i k j l, o.Inc x.g := by
  have S : ∀ (a b c d : K) (u v : Int), i - 1 ≤ u → u ≤ i + 1 → k - 1 ≤ v → v ≤ k + 1 →
      ∀ o ∈ simple x a b c d u v p.q, o.Inc x.g := by
    intro a b c d u v h1 h2 h3 h4
    exact simple_inc x p.q (by omega) (by omega) (by omega) (by omega)
  have N : ∀ o ∈ ([] : List (Op K)), o.Inc x.g := by intro o ho; simp at ho
  have A : ∀ l l' : List (Op K), (∀ o ∈ l, o.Inc x.g) → (∀ o ∈ l', o.Inc x.g) → ∀ o ∈ l ++ l', o.Inc x.g :=
    fun l l' h h' o ho => (List.mem_append.mp ho).elim (h o) (h' o)
  have c1 : ∀ o ∈ crossR x p i k, o.Inc x.g := by
    unfold crossR; dsimp only; split <;> (apply A <;> apply S <;> omega)
  have c2 : ∀ o ∈ crossZ x p i k, o.Inc x.g := by
    unfold crossZ; dsimp only; split <;> (apply A <;> apply S <;> omega)
  have c3 : ∀ o ∈ crossUpRight x p i k, o.Inc x.g := by
    unfold crossUpRight; dsimp only
    split
    · apply A; apply A
      all_goals (apply S <;> omega)
    · split
      · apply A; apply A
        all_goals (apply S <;> omega)
      · exact N
  have c4 : ∀ o ∈ crossUpLeft x p i k, o.Inc x.g := by
    unfold crossUpLeft; dsimp only
    split
    · apply A; apply A
      all_goals (apply S <;> omega)
    · split
      · apply A; apply A
        all_goals (apply S <;> omega)
      · exact N
  have c5 : ∀ o ∈ crossDownRight x p i k, o.Inc x.g := by
    unfold crossDownRight; dsimp only
    split
    · apply A; apply A
      all_goals (apply S <;> omega)
    · split
      · apply A; apply A
        all_goals (apply S <;> omega)
      · exact N
  have c6 : ∀ o ∈ crossDownLeft x p i k, o.Inc x.g := by
    unfold crossDownLeft; dsimp only
    split
    · apply A; apply A
      all_goals (apply S <;> omega)
    · split
      · apply A; apply A
        all_goals (apply S <;> omega)
      · exact N
  unfold switchOps
  dsimp only
  split_ifs
  · exact S _ _ _ _ _ _ (by omega) (by omega) (by omega) (by omega)
  · exact c1
  · exact c2
  · exact N
  · exact c3
  · exact c4
  · exact c5
  · exact c6
  · exact N
  · exact N
  · exact N

theorem radial_inc (x : Ctx K) (rNew zNew rOld q : K) {i k j : Int}
    (di : (x.g.r0 : Int) ≤ i ∧ i < (x.g.r0 : Int) + x.g.nr) (dk : (x.g.z0 : Int) ≤ k ∧ k < (x.g.z0 : Int) + x.g.nz) :
    ∀ o ∈ strictRadial x rNew zNew rOld i j k q, o.Inc x.g := by
  intro o ho
  unfold strictRadial at ho
  dsimp only at ho
  split_ifs at ho <;> simp only [List.mem_cons, List.not_mem_nil, or_false] at ho
  · rcases ho with rfl | rfl <;> (unfold Op.Inc insideG; dsimp only; omega)
  · rcases ho with rfl | rfl | rfl | rfl <;> (unfold Op.Inc insideG; dsimp only; omega)
  · rcases ho with rfl | rfl | rfl | rfl <;> (unfold Op.Inc insideG; dsimp only; omega)

/-- The particle does not move along the axis only. -/
theorem rzOps_inc (x : Ctx K) (hx : x.Good) (p : Part K) (hb : p.Bound x.g) (hn : p.NearCell x.g)
    (ha : x.mnzl ≤ |p.r - p.rOld| ∨ |p.z - p.zOld| < x.mnzl) :
    ∃ ops, rzOps x p = .ok ops ∧ ∀ o ∈ ops, o.Inc x.g := by
  obtain ⟨h1, h2, h3, h4⟩ := bound_cells hx.geo hb
  have N : ∀ o ∈ ([] : List (Op K)), o.Inc x.g := by intro o ho; simp at ho
  rw [rzOps_eq x hx p hb hn]
  split
  · rw [strictMotion_eq x hx p hb hn]
    refine ⟨_, rfl, ?_⟩
    split_ifs with a b c
    · exact N
    · rcases ha with ha | ha
      · exact absurd b (not_lt.mpr ha)
      · exact absurd ⟨b, ha⟩ a
    · exact radial_inc x _ _ _ _ h3 h4
    · exact N
  · exact ⟨_, rfl, switch_inc x p h3 h4⟩

/-! ### Charge of a node -/

theorem nodeCharge_pos {g : Geom K} (hg : g.Good) {r z : K} (hr : 0 < r) {i k : Int} (hi : 0 ≤ i)
    (ri : (i : K) * g.dr ≤ r ∧ r < ((i : K) + 1) * g.dr) (zk : (k : K) * g.dz ≤ z ∧ z < ((k : K) + 1) * g.dz)
    {q : K} (hq : q ≠ 0) : nodeCharge g q r z i k ≠ 0 := by
  have dr := hg.dr
  have dz := hg.dz
  have hi0 : (0 : K) ≤ (i : K) := by exact_mod_cast hi
  rw [nodeCharge_cell hg hi ⟨hr, ri.1, ri.2.le, zk.1, zk.2.le⟩ q _ _ hi, if_pos rfl, if_pos rfl]
  refine mul_ne_zero (mul_ne_zero hq ?_) ?_
  · refine (div_pos ?_ (by positivity)).ne'
    have e : (((i : K) + 1/2) * g.dr) ^ 2 - (r - g.dr / 2) ^ 2 = (((i : K) + 1) * g.dr - r) * ((i : K) * g.dr + r) := by
      ring
    rw [e]
    exact mul_pos (sub_pos.mpr ri.2) (by positivity)
  · exact (div_pos (sub_pos.mpr zk.2) dz).ne'

theorem nodeCharge_far {g : Geom K} (hg : g.Good) {r z : K} {i k : Int} (hi : 0 ≤ i) (h : InCell g r z i k)
    (q : K) {a : Int} (b : Int) (ha : 0 ≤ a) (h1 : a ≠ i) (h2 : a ≠ i + 1) : nodeCharge g q r z a b = 0 := by
  rw [nodeCharge_cell hg hi h q _ _ ha, if_neg h1, if_neg h2]
  ring

end VB
end Pico
