import Verif.Props.PicFull

/-!
# C106 — particles feel the sum of their own and the external fields
-/

set_option linter.unusedSimpArgs false
set_option linter.unusedVariables false
set_option linter.unusedSectionVars false

namespace Pico
namespace Pic

open SMB Yee

/-- Cell by cell sum of two sets of grids. -/
def sumGrids (m x : Mem ℝ) : Mem ℝ := fun c i k => m c i k + x c i k

/-- A reading that is undefined for all grids or for none, and linear. -/
def Linear {V : Type} (add : V → V → V) (f : Mem ℝ → Res V) : Prop :=
  (∃ L : Mem ℝ → V, (∀ m, f m = .ok (L m)) ∧ ∀ m x, L (sumGrids m x) = add (L m) (L x)) ∨ ∀ m, f m = .ub

theorem linear_bind {V W U : Type} {a : V → V → V} {b : W → W → W} {c : U → U → U} {f : Mem ℝ → Res V} {h : Mem ℝ → Res W} (hf : Linear a f)
    (hh : Linear b h) (G : V → W → U) (hG : ∀ v v' w w', G (a v v') (b w w') = c (G v w) (G v' w')) :
    Linear c fun m => f m >>= fun v => h m >>= fun w => .ok (G v w) := by
  rcases hf with ⟨L, l1, l2⟩ | hf
  · rcases hh with ⟨L', l1', l2'⟩ | hh
    · refine Or.inl ⟨fun m => G (L m) (L' m), fun m => ?_, fun m x => ?_⟩
      · dsimp only
        rw [l1, Res.ok_bind, l1', Res.ok_bind]
      · dsimp only
        rw [l2, l2', hG]
    · refine Or.inr fun m => ?_
      dsimp only
      rw [l1, Res.ok_bind, hh]
      rfl
  · refine Or.inr fun m => ?_
    dsimp only
    rw [hf]
    rfl

/-- Sums of four addends. -/
def add4 (p q : ℝ × ℝ × ℝ × ℝ) : ℝ × ℝ × ℝ × ℝ := (p.1 + q.1, p.2.1 + q.2.1, p.2.2.1 + q.2.2.1, p.2.2.2 + q.2.2.2)

theorem linear_four (pi : ℝ) (g : Geom ℝ) (c : Yee.Comp) (i k : Int) (r1 r2 r3 dz1 dz2 vol1 vol2 : ℝ) :
    Linear add4 fun m => Interp.four pi g m c i k r1 r2 r3 dz1 dz2 vol1 vol2 := by
  unfold Interp.four Interp.rdG Interp.quot
  by_cases a1 : VB.insideG g (i - g.r0) (k - g.z0)
  swap
  · refine Or.inr fun m => ?_
    simp only [a1, if_false]
    rfl
  by_cases a2 : vol1 = 0
  · refine Or.inr fun m => ?_
    simp only [a1, a2, if_true, Res.ok_bind]
    rfl
  by_cases a3 : VB.insideG g (i - g.r0 + 1) (k - g.z0)
  swap
  · refine Or.inr fun m => ?_
    simp only [a1, a2, a3, if_true, if_false, Res.ok_bind]
    rfl
  by_cases a4 : vol2 = 0
  · refine Or.inr fun m => ?_
    simp only [a1, a2, a3, a4, if_true, if_false, Res.ok_bind]
    rfl
  by_cases a5 : VB.insideG g (i - g.r0) (k - g.z0 + 1)
  swap
  · refine Or.inr fun m => ?_
    simp only [a1, a2, a3, a4, a5, if_true, if_false, Res.ok_bind]
    rfl
  by_cases a6 : VB.insideG g (i - g.r0 + 1) (k - g.z0 + 1)
  swap
  · refine Or.inr fun m => ?_
    simp only [a1, a2, a3, a4, a5, a6, if_true, if_false, Res.ok_bind]
    rfl
  refine Or.inl ⟨fun m => (m c (i - g.r0) (k - g.z0) * cylRngVol pi dz1 r1 r2 / vol1, m c (i - g.r0 + 1) (k - g.z0) * cylRngVol pi dz1 r2 r3 / vol2,
    m c (i - g.r0) (k - g.z0 + 1) * cylRngVol pi dz2 r1 r2 / vol1, m c (i - g.r0 + 1) (k - g.z0 + 1) * cylRngVol pi dz2 r2 r3 / vol2), fun m => ?_, fun m x => ?_⟩
  · simp only [a1, a2, a3, a4, a5, a6, if_true, if_false, Res.ok_bind]
  · unfold sumGrids add4
    simp only [add_mul, add_div]

theorem linear_cells {V : Type} {add : V → V → V} (x y dx dy : ℝ) {f : Int → Int → Mem ℝ → Res V} (hf : ∀ i k, Linear add (f i k)) :
    Linear add fun m => cellNumber x dx >>= fun i => cellNumber y dy >>= fun k => f i k m := by
  unfold cellNumber
  dsimp only
  by_cases c1 : -2 ^ 31 ≤ ⌊x / dx⌋ ∧ ⌊x / dx⌋ < 2 ^ 31
  · by_cases c2 : -2 ^ 31 ≤ ⌊y / dy⌋ ∧ ⌊y / dy⌋ < 2 ^ 31
    · rw [if_pos c1, if_pos c2]
      simp only [Res.ok_bind]
      exact hf _ _
    · rw [if_pos c1, if_neg c2]
      exact Or.inr fun m => rfl
  · rw [if_neg c1]
    exact Or.inr fun m => rfl

theorem linear_E (pi : ℝ) (g : Geom ℝ) (r z : ℝ) : Linear Vec3.add fun m => Interp.getE pi g m r z := by
  unfold Interp.getE
  have h1 : Linear add4 fun m => Interp.halfWhole pi g m .er r z := linear_cells _ _ _ _ fun i k => linear_four ..
  have h2 : Linear add4 fun m => Interp.wholeHalf pi g m .ez r z := linear_cells _ _ _ _ fun i k => linear_four ..
  have h3 : Linear add4 fun m => Interp.wholeWhole pi g m .ep r z := linear_cells _ _ _ _ fun i k => linear_four ..
  have h23 := linear_bind (c := fun p q => (add4 p.1 q.1, add4 p.2 q.2)) h2 h3 (fun z p => (z, p)) fun _ _ _ _ => rfl
  have := linear_bind (c := Vec3.add) h1 h23 (fun r q => (⟨Interp.sum4 r, q.2.1 + q.2.2.1 + q.2.2.2.1, Interp.sum4 q.1 + q.2.2.2.2⟩ : Vec3 ℝ)) (by
    intro v v' w w'
    unfold Vec3.add add4 Interp.sum4
    dsimp only
    congr 1 <;> ring)
  refine Eq.mp (congrArg (Linear Vec3.add) ?_) this
  funext m
  cases Interp.halfWhole pi g m .er r z with
  | ok a =>
    rw [Res.ok_bind, Res.ok_bind]
    cases Interp.wholeHalf pi g m .ez r z with
    | ok b =>
      rw [Res.ok_bind, Res.ok_bind]
      cases Interp.wholeWhole pi g m .ep r z <;> rfl
    | fatal => rfl
    | ub => rfl
  | fatal => rfl
  | ub => rfl

theorem linear_H (pi : ℝ) (g : Geom ℝ) (r z : ℝ) : Linear Vec3.add fun m => Interp.getH pi g m r z := by
  unfold Interp.getH
  have h1 : Linear add4 fun m => Interp.halfWhole pi g m .fz r z := linear_cells _ _ _ _ fun i k => linear_four ..
  have h2 : Linear add4 fun m => Interp.wholeHalf pi g m .fr r z := linear_cells _ _ _ _ fun i k => linear_four ..
  have h3 : Linear add4 fun m => Interp.halfHalf pi g m .fp r z := linear_cells _ _ _ _ fun i k => linear_four ..
  have h23 := linear_bind (c := fun p q => (add4 p.1 q.1, add4 p.2 q.2)) h2 h3 (fun z p => (z, p)) fun _ _ _ _ => rfl
  have := linear_bind (c := Vec3.add) h1 h23 (fun z q => (⟨Interp.sum4 q.1, Interp.sum4 q.2, Interp.sum4 z⟩ : Vec3 ℝ)) (by
    intro v v' w w'
    unfold Vec3.add add4 Interp.sum4
    dsimp only
    congr 1 <;> ring)
  refine Eq.mp (congrArg (Linear Vec3.add) ?_) this
  funext m
  cases Interp.halfWhole pi g m .fz r z with
  | ok a =>
    rw [Res.ok_bind, Res.ok_bind]
    cases Interp.wholeHalf pi g m .fr r z with
    | ok b =>
      rw [Res.ok_bind, Res.ok_bind]
      cases Interp.halfHalf pi g m .fp r z <;> rfl
    | fatal => rfl
    | ub => rfl
  | fatal => rfl
  | ub => rfl

/-- **C106.**  With external fields every particle is pushed as if the fields on its domain were the sum of the computed and the external ones:
for all grids, positions and velocities, and all pushers. -/
theorem C106_force (kind : Pusher.Kind) (P : Pusher.Par) (junk : Bool) (pi : ℝ) (g : Geom ℝ) (m x : Mem ℝ) (r z : ℝ) (v : Vec3 ℝ) :
    pushExt kind P junk pi g m x r z v = Pusher.push kind P junk pi g (sumGrids m x) r z v := by
  unfold pushExt Pusher.push
  rcases linear_E pi g r z with ⟨L, l1, l2⟩ | he
  · rcases linear_H pi g r z with ⟨L', l1', l2'⟩ | hh
    · dsimp only at l1 l1'
      simp only [l1, l1', Res.ok_bind, l2, l2']
    · dsimp only at l1 hh
      simp only [l1, hh, Res.ok_bind]
      rfl
  · dsimp only at he
    simp only [he]
    rfl

/-- **C106.**  In a step of a run: the velocities after the push. -/
theorem C106_felt {F : Full} {ob : Ext.Obj ℝ} (hx : F.ext = some ob) {S : FState} {M1 : Solvers ℝ} {X : Nat → Nat → Mem ℝ}
    {maps : Nat → Nat → Coll.Maps} {H : Nat → Nat → Nat → Part ℝ} (hc : F.coll = none) (q : Speeds F S M1 X maps H) {i j : Nat} (hi : i < F.env.domR)
    (hj : j < F.env.domZ) {sp : Sp} (hsp : sp ∈ S.s.D i j) {o : Prt} (ho : o ∈ sp.parts) :
    ∃ junk v, Pusher.push F.env.kind (F.env.pushPar sp.id) junk F.env.e.pi (F.env.geom i j) (sumGrids (M1 i j) (X i j))
        (S.s.heap o.tag).posR (S.s.heap o.tag).posZ (vel (S.s.heap o.tag)) = .ok v ∧ H i j o.tag = setVel (S.s.heap o.tag) v := by
  obtain ⟨h1, _, _, h3, h4⟩ := q
  obtain ⟨v, ⟨junk, e⟩, e'⟩ := h3 i j hi hj sp hsp o ho
  rw [hx] at e
  dsimp only at e
  rw [C106_force] at e
  have := h4 i j hi hj
  unfold Full.collided at this
  rw [hc] at this
  exact ⟨junk, v, e, by rw [this.1]; exact e'⟩

open Pair in
/-- The hypotheses of `C106_felt`. -/
example : ∃ M1 X maps H, Speeds (full (some ⟨1, 3, [], [5]⟩) none) state M1 X maps H ∧ ∃ o, o ∈ (⟨7, [⟨0, 0, 0⟩]⟩ : Sp).parts ∧ (⟨7, [⟨0, 0, 0⟩]⟩ : Sp) ∈ state.s.D 0 0 := by
  obtain ⟨M1, X, maps, H, q⟩ := C106_speeds (built (some ⟨1, 3, [], [5]⟩) none) (ids := [7, 8]) (by decide) (alive _ _)
    (ext_works (el := "none") (mag := "const_z") (ep := []) (mp := [5]) (fun o h => by injection h with h; subst h; rfl) (by simp)) (fun M P K k => nomatch k)
  exact ⟨M1, X, maps, H, q, ⟨0, 0, 0⟩, List.mem_cons_self .., List.mem_cons_self ..⟩

end Pic
end Pico
