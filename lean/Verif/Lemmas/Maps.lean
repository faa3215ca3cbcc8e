import Verif.Model.Maps
import Verif.Props.Weighting
import Verif.Props.Smooth
import Verif.Lemmas.Rel

/-! Lemmas for the maps of a species. -/

set_option linter.unusedSimpArgs false
set_option linter.unusedVariables false
set_option linter.unusedSectionVars false

namespace Pico

section
variable {K : Type _} [Field K] [LinearOrder K] [IsStrictOrderedRing K] [FloorRing K]

theorem Geom.MapOf.same {g : Geom K} {a b : Grid K} (M : g.MapOf a) (s : Grid.SameShape a b) : g.MapOf b :=
  ⟨s.wf M.wf, s.2.1.trans M.xs, s.2.2.trans M.ys, by rw [s.1]; exact M.os⟩

/-- Clearing a map. -/
theorem clear_map {g : Geom K} (m : Grid K) (M : g.MapOf m) :
    ∃ a b, m.assign 0 = .ok a ∧ a.overlaySet 0 = .ok b ∧ Grid.SameShape m b ∧
      ∀ x y : Int, m.Inside x y → b.get x y = .ok 0 := by
  obtain ⟨a, ea, sa, ha, _⟩ := Grid.C02_assign m M.wf (0 : K)
  obtain ⟨b, eb, sb, hb, hb'⟩ := Grid.C02_overlay_set a (sa.wf M.wf) (0 : K)
  refine ⟨a, b, ea, eb, sa.trans sb, ?_⟩
  intro x y hin
  by_cases hi : m.Interior x y
  · have hia : a.Interior x y := by unfold Grid.Interior at *; rw [sa.2.1, sa.2.2]; exact hi
    rw [hb' x y hia]
    exact ha x y hi
  · have hia : ¬ a.Interior x y := by unfold Grid.Interior at *; rw [sa.2.1, sa.2.2]; exact hi
    exact hb x y ((sa.inside x y).mpr hin) hia

theorem loop_weight (pi : K) (g : Geom K) (G : g.Good) (ps : List (WP K)) :
    ∀ (b : Grid K), g.MapOf b → (∀ p ∈ ps, g.Contains p.r p.z) →
      ∃ c, loop (fun p m => weightCyl pi g m p.r p.z p.w) ps b = .ok c ∧
        b.Added c (fun x y => (ps.map fun p => densityOf pi g p x y).sum) := by
  induction ps with
  | nil => intro b _ _; exact ⟨b, rfl, Grid.Added.refl b⟩
  | cons p ps ih =>
    intro b Mb C
    obtain ⟨c, ec, Ac⟩ := weightCyl_density pi g G b Mb p (C p List.mem_cons_self)
    obtain ⟨d, ed, Ad⟩ := ih c (Mb.same Ac.1) (fun q hq => C q (List.mem_cons_of_mem _ hq))
    refine ⟨d, by rw [loop_cons, ec, Res.ok_bind, ed], ?_⟩
    exact (Ac.trans Ad).congr (fun x y _ => by simp)

/-- The density map: its shape and its values. -/
theorem density_value (pi : K) (g : Geom K) (G : g.Good) (m : Grid K) (M : g.MapOf m) (ps : List (WP K))
    (C : ∀ p ∈ ps, g.Contains p.r p.z) :
    ∃ d, calcDensity pi g m ps = .ok d ∧ Grid.SameShape m d ∧
      ∀ x y : Int, m.Inside x y → d.get x y = .ok ((ps.map fun p => densityOf pi g p x y).sum) := by
  obtain ⟨a, b, ea, eb, s, z⟩ := clear_map m M
  obtain ⟨c, ec, Ac⟩ := loop_weight pi g G ps b (M.same s) C
  refine ⟨c, by unfold calcDensity; rw [ea, Res.ok_bind, eb, Res.ok_bind, ec], s.trans Ac.1, ?_⟩
  intro x y hin
  rw [Ac.2 x y 0 ((s.inside x y).mpr hin) (z x y hin), zero_add]

/-- The contribution of a particle is proportional to its weight. -/
theorem densityOf_scale (pi : K) (g : Geom K) (r z w a : K) (x y : Int) :
    densityOf pi g ⟨r, z, a * w⟩ x y = a * densityOf pi g ⟨r, z, w⟩ x y := by
  unfold densityOf
  dsimp only
  unfold Deposit.δ Grid.single depositOf
  dsimp only
  have s : ∀ (c : Prop) [Decidable c] (p q : K), p = a * q → (if c then p else 0) = a * (if c then q else 0) := by
    intro c _ p q h
    split
    · exact h
    · rw [mul_zero]
  split_ifs with h1 h2 h3 <;> simp only [mul_add] <;> (try simp) <;> ring

end

namespace Maps

/-- `SameShape` for the three components. -/
def Same3 (a b : Grid3D ℝ) : Prop := Grid.SameShape a.r b.r ∧ Grid.SameShape a.phi b.phi ∧ Grid.SameShape a.z b.z

/-- Three maps over the domain. -/
structure Map3 (g : Geom ℝ) (m : Grid3D ℝ) : Prop where
  r : g.MapOf m.r
  phi : g.MapOf m.phi
  z : g.MapOf m.z

theorem clear3 {g : Geom ℝ} (m : Grid3D ℝ) (M : Map3 g m) :
    ∃ a b, m.assign 0 = .ok a ∧ a.overlaySet 0 = .ok b ∧ Same3 m b ∧
      (∀ x y : Int, m.r.Inside x y → b.r.get x y = .ok 0) ∧ (∀ x y : Int, m.phi.Inside x y → b.phi.get x y = .ok 0) ∧
      (∀ x y : Int, m.z.Inside x y → b.z.get x y = .ok 0) := by
  obtain ⟨a1, b1, e1, f1, s1, z1⟩ := clear_map m.r M.r
  obtain ⟨a2, b2, e2, f2, s2, z2⟩ := clear_map m.phi M.phi
  obtain ⟨a3, b3, e3, f3, s3, z3⟩ := clear_map m.z M.z
  refine ⟨⟨a1, a2, a3⟩, ⟨b1, b2, b3⟩, ?_, ?_, ⟨s1, s2, s3⟩, z1, z2, z3⟩
  · unfold Grid3D.assign
    rw [e1, Res.ok_bind, e2, Res.ok_bind, e3, Res.ok_bind]
    rfl
  · unfold Grid3D.overlaySet
    dsimp only
    rw [f1, Res.ok_bind, f2, Res.ok_bind, f3, Res.ok_bind]
    rfl

theorem momAbs_value (q : Par) (g : Geom ℝ) (G : g.Good) (m : Grid ℝ) (M : g.MapOf m) (ps : List VP)
    (C : ∀ p ∈ ps, g.Contains p.r p.z) (a : VP → ℝ) (ha : ∀ p ∈ ps, pAbs q p = .ok (a p)) :
    ∃ d, calcMomAbs q g m ps = .ok d ∧ Grid.SameShape m d ∧
      ∀ x y : Int, m.Inside x y → d.get x y = .ok ((ps.map fun p => densityOf q.pi g ⟨p.r, p.z, a p⟩ x y).sum) := by
  have E : calcMomAbs q g m ps = calcDensity q.pi g m (ps.map fun p => ⟨p.r, p.z, a p⟩) := by
    unfold calcMomAbs calcDensity
    congr 1
    funext m1
    congr 1
    funext m2
    clear C M
    induction ps generalizing m2 with
    | nil => rfl
    | cons p l ih =>
      rw [List.map_cons, loop_cons, loop_cons, ha p List.mem_cons_self, Res.ok_bind]
      congr 1
      funext m3
      exact ih (fun p hp => ha p (List.mem_cons_of_mem _ hp)) m3
  rw [E]
  obtain ⟨d, e, s, v⟩ := density_value q.pi g G m M (ps.map fun p => ⟨p.r, p.z, a p⟩) (by
    intro p hp
    obtain ⟨p', h', rfl⟩ := List.mem_map.mp hp
    exact C p' h')
  refine ⟨d, e, s, fun x y h => ?_⟩
  rw [v x y h, List.map_map]
  rfl

theorem momW_value (q : Par) (g : Geom ℝ) (G : g.Good) (m : Grid3D ℝ) (M : Map3 g m) (ps : List VP)
    (C : ∀ p ∈ ps, g.Contains p.r p.z) (a : VP → ℝ × ℝ × ℝ) (ha : ∀ p ∈ ps, pVec q p = .ok (a p)) :
    ∃ d, calcMomW q g m ps = .ok d ∧ Same3 m d ∧
      (∀ x y : Int, m.r.Inside x y → d.r.get x y = .ok ((ps.map fun p => densityOf q.pi g ⟨p.r, p.z, (a p).1⟩ x y).sum)) ∧
      (∀ x y : Int, m.phi.Inside x y →
        d.phi.get x y = .ok ((ps.map fun p => densityOf q.pi g ⟨p.r, p.z, (a p).2.1⟩ x y).sum)) ∧
      (∀ x y : Int, m.z.Inside x y → d.z.get x y = .ok ((ps.map fun p => densityOf q.pi g ⟨p.r, p.z, (a p).2.2⟩ x y).sum)) := by
  obtain ⟨m1, b, e1, e2, s, z1, z2, z3⟩ := clear3 m M
  have L : ∀ (ps : List VP), (∀ p ∈ ps, g.Contains p.r p.z) → (∀ p ∈ ps, pVec q p = .ok (a p)) →
      ∀ b : Grid3D ℝ, Map3 g b → ∃ d,
      loop (fun p m => pVec q p >>= fun a =>
        weightCyl q.pi g m.r p.r p.z a.1 >>= fun mr =>
        weightCyl q.pi g m.phi p.r p.z a.2.1 >>= fun mp =>
        weightCyl q.pi g m.z p.r p.z a.2.2 >>= fun mz => .ok (⟨mr, mp, mz⟩ : Grid3D ℝ)) ps b = .ok d ∧
      b.r.Added d.r (fun x y => (ps.map fun p => densityOf q.pi g ⟨p.r, p.z, (a p).1⟩ x y).sum) ∧
      b.phi.Added d.phi (fun x y => (ps.map fun p => densityOf q.pi g ⟨p.r, p.z, (a p).2.1⟩ x y).sum) ∧
      b.z.Added d.z (fun x y => (ps.map fun p => densityOf q.pi g ⟨p.r, p.z, (a p).2.2⟩ x y).sum) := by
    intro ps
    induction ps with
    | nil => intro _ _ b _; exact ⟨b, rfl, Grid.Added.refl _, Grid.Added.refl _, Grid.Added.refl _⟩
    | cons p l ih =>
      intro C ha b Mb
      have Cp := C p List.mem_cons_self
      obtain ⟨c1, f1, A1⟩ := weightCyl_density q.pi g G b.r Mb.r ⟨p.r, p.z, (a p).1⟩ Cp
      obtain ⟨c2, f2, A2⟩ := weightCyl_density q.pi g G b.phi Mb.phi ⟨p.r, p.z, (a p).2.1⟩ Cp
      obtain ⟨c3, f3, A3⟩ := weightCyl_density q.pi g G b.z Mb.z ⟨p.r, p.z, (a p).2.2⟩ Cp
      obtain ⟨d, e, B1, B2, B3⟩ := ih (fun p hp => C p (List.mem_cons_of_mem _ hp))
        (fun p hp => ha p (List.mem_cons_of_mem _ hp)) ⟨c1, c2, c3⟩ ⟨Mb.r.same A1.1, Mb.phi.same A2.1, Mb.z.same A3.1⟩
      refine ⟨d, ?_, (A1.trans B1).congr (fun x y _ => by simp), (A2.trans B2).congr (fun x y _ => by simp),
        (A3.trans B3).congr (fun x y _ => by simp)⟩
      rw [loop_cons, ha p List.mem_cons_self, Res.ok_bind]
      dsimp only at f1 f2 f3 ⊢
      rw [f1, Res.ok_bind, f2, Res.ok_bind, f3, Res.ok_bind, Res.ok_bind]
      exact e
  obtain ⟨d, e, A1, A2, A3⟩ := L ps C ha b ⟨M.r.same s.1, M.phi.same s.2.1, M.z.same s.2.2⟩
  refine ⟨d, ?_, ⟨s.1.trans A1.1, s.2.1.trans A2.1, s.2.2.trans A3.1⟩, ?_, ?_, ?_⟩
  · unfold calcMomW
    rw [e1, Res.ok_bind, e2, Res.ok_bind]
    exact e
  · intro x y h
    rw [A1.2 x y 0 ((s.1.inside x y).mpr h) (z1 x y h), zero_add]
  · intro x y h
    rw [A2.2 x y 0 ((s.2.1.inside x y).mpr h) (z2 x y h), zero_add]
  · intro x y h
    rw [A3.2 x y 0 ((s.2.2.inside x y).mpr h) (z3 x y h), zero_add]

/-- A loop that sets all cells of the domain. -/
theorem loop_cells_set {g : Geom ℝ} (e : Grid ℝ) (M : g.MapOf e) (body : Nat × Nat → Grid ℝ → Res (Grid ℝ))
    (v : Nat → Nat → ℝ)
    (hb : ∀ x y, x < g.nr → y < g.nz → ∀ b : Grid ℝ, Grid.SameShape e b → body (x, y) b = b.set x y (v x y)) :
    ∃ e', loop body (idx2 0 g.nr 0 g.nz) e = .ok e' ∧ Grid.SameShape e e' ∧
      (∀ x y : Nat, x < g.nr → y < g.nz → e'.get x y = .ok (v x y)) ∧
      (∀ x y : Int, e.Inside x y → ¬ e.Interior x y → e'.get x y = e.get x y) := by
  obtain ⟨c, ec, h1, h2⟩ := Help.loop_sets e body (idx2 0 g.nr 0 g.nz) (fun p => (p.1 + e.os, p.2 + e.os))
    (fun p => v p.1 p.2) (by
      intro p hp c
      rw [mem_idx2] at hp
      have xs := M.xs
      have ys := M.ys
      have := hb p.1 p.2 (by omega) (by omega) (e.withCell c) ⟨rfl, rfl, rfl⟩
      refine Eq.trans this ?_
      rw [Help.set_nat (e.withCell c) (Help.withCell_WF M.wf c) _ (by show p.1 < e.xs + e.os; omega)
        (by show p.2 < e.ys + e.os; omega)]
      rfl) e.cell
  rw [Grid.withCell_self] at ec
  refine ⟨e.withCell c, ec, ⟨rfl, rfl, rfl⟩, ?_, ?_⟩
  · intro x y hx hy
    have xs := M.xs
    have ys := M.ys
    rw [Help.get_nat (e.withCell c) (Help.withCell_WF M.wf c) (by show x < e.xs + e.os; omega)
      (by show y < e.ys + e.os; omega)]
    have := h1 (x, y) (by rw [mem_idx2]; omega) (by
      intro k _ hk
      dsimp only at hk
      have q := Prod.mk.inj hk
      have q1 : k.1 = x := by omega
      have q2 : k.2 = y := by omega
      rw [q1, q2])
    exact congrArg Res.ok this
  · intro x y hin hno
    have w : (e.withCell c).WF := Help.withCell_WF M.wf c
    have w1 := M.wf.1
    have w2 := M.wf.2
    unfold Grid.xr at w1
    unfold Grid.yr at w2
    unfold Grid.Inside at hin
    unfold Grid.Interior at hno
    unfold Grid.get
    rw [Grid.uidx_nonneg x _ (by show 0 ≤ x + (e.os : Int); omega) (by show x + (e.os : Int) < _; omega),
      Grid.uidx_nonneg y _ (by show 0 ≤ y + (e.os : Int); omega) (by show y + (e.os : Int) < _; omega),
      Grid.uidx_nonneg x _ (by omega) (by omega), Grid.uidx_nonneg y _ (by omega) (by omega)]
    rw [Grid.rd_ok e (by unfold Grid.xr; omega) (by unfold Grid.yr; omega)]
    refine Eq.trans (Grid.rd_ok (e.withCell c) (i := (x + (e.os : Int)).toNat) (j := (y + (e.os : Int)).toNat)
      (by show _ < e.xs + e.os * 2; omega) (by show _ < e.ys + e.os * 2; omega)) ?_
    refine congrArg Res.ok (h2 _ _ ?_)
    intro p hp
    rw [mem_idx2] at hp
    have xs := M.xs
    have ys := M.ys
    intro hc
    have q := Prod.mk.inj hc
    omega

end Maps
end Pico
