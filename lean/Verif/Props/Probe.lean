import Verif.Model.Probe
import Verif.Lemmas.Base
import Verif.Props.Tiling
import Mathlib.Tactic.Linarith
import Mathlib.Tactic.NormNum
import Mathlib.Data.Nat.Digits.Lemmas

/-!
# Rectangular probes are assembled from the domains (C44); probe configuration and paths (C46)
-/

set_option linter.unusedSimpArgs false
set_option linter.unusedVariables false
set_option linter.unusedSectionVars false

namespace Pico
namespace Probe

open SMB

/-! ## C44 -/

theorem i16_id (x : Int) (h0 : 0 ≤ x) (h1 : x < 2 ^ 15) : i16 x = x := by
  unfold i16
  omega

section
variable {T : Type _} [Zero T]

theorem loop_read (get : Nat → Nat → Res T) (G : Nat → Nat → T) (l : List (Nat × Nat))
    (h : ∀ q ∈ l, get q.1 q.2 = .ok (G q.1 q.2)) :
    ∀ v : Nat → Nat → T, ∃ v', loop (fun (q : Nat × Nat) (v : Nat → Nat → T) => get q.1 q.2 >>= fun x =>
        .ok fun a b => if a = q.1 ∧ b = q.2 then x else v a b) l v = .ok v' ∧
      ∀ a b, v' a b = (if (a, b) ∈ l then G a b else v a b) := by
  induction l with
  | nil => intro v; exact ⟨v, rfl, by simp⟩
  | cons q l ih =>
    intro v
    obtain ⟨v', h1, h2⟩ := ih (fun q' hq' => h q' (List.mem_cons_of_mem _ hq'))
      (fun a b => if a = q.1 ∧ b = q.2 then G q.1 q.2 else v a b)
    refine ⟨v', ?_, ?_⟩
    · rw [loop_cons, h q (List.mem_cons_self ..), Res.ok_bind, Res.ok_bind]
      exact h1
    · intro a b
      rw [h2]
      by_cases hm : (a, b) ∈ l
      · simp [hm]
      · by_cases he : a = q.1 ∧ b = q.2
        · obtain ⟨rfl, rfl⟩ := he
          simp
        · have : (a, b) ≠ q := fun e => he ⟨by rw [← e], by rw [← e]⟩
          simp [hm, he, this]

/-- The grid of domain `d` holds the part of `G` that belongs to the domain. -/
def Holds (G : Nat → Nat → T) (d : CellDims) (g : Grid T) : Prop :=
  ∀ a b : Nat, a < d.r1 - d.r0 → b < d.z1 - d.z0 → g.get a b = .ok (G (d.r0 + a) (d.z0 + b))

/-- The cell `(r, z)` of the area lies in the rectangle. -/
def Rect.Has (p : Rect) (r z : Nat) : Prop := (p.r0 ≤ r ∧ r < p.r1) ∧ (p.z0 ≤ z ∧ z < p.z1)

instance (p : Rect) (r z : Nat) : Decidable (p.Has r z) := by unfold Rect.Has; infer_instance
instance (p : CellDims) (r z : Nat) : Decidable (p.Has r z) := by unfold CellDims.Has; infer_instance

theorem effective_eq (p : Rect) (d : CellDims) (h1 : d.r1 < 2 ^ 15) (h2 : d.z1 < 2 ^ 15)
    (hd : d.r0 ≤ d.r1 ∧ d.z0 ≤ d.z1) (ht : touches p d = true) (hp : p.r0 ≤ p.r1 ∧ p.z0 ≤ p.z1) :
    effective p d = ⟨(max p.r0 d.r0 - d.r0 : Nat), (max p.z0 d.z0 - d.z0 : Nat), (min p.r1 d.r1 - d.r0 : Nat),
      (min p.z1 d.z1 - d.z0 : Nat)⟩ ∧ max p.r0 d.r0 ≤ min p.r1 d.r1 ∧ max p.z0 d.z0 ≤ min p.z1 d.z1 := by
  simp only [touches, decide_eq_true_eq] at ht
  obtain ⟨t1, t2, t3, t4⟩ := ht
  have e1 : (if p.r0 < d.r0 then (d.r0 : Int) else p.r0) = ((max p.r0 d.r0 : Nat) : Int) := by split <;> omega
  have e2 : (if p.z0 < d.z0 then (d.z0 : Int) else p.z0) = ((max p.z0 d.z0 : Nat) : Int) := by split <;> omega
  have e3 : (if p.r1 > d.r1 then (d.r1 : Int) else p.r1) = ((min p.r1 d.r1 : Nat) : Int) := by split <;> omega
  have e4 : (if p.z1 > d.z1 then (d.z1 : Int) else p.z1) = ((min p.z1 d.z1 : Nat) : Int) := by split <;> omega
  refine ⟨?_, by omega, by omega⟩
  unfold effective
  rw [e1, e2, e3, e4]
  have k : ∀ m o : Nat, o ≤ m → m < 2 ^ 15 → i16 (i16 (m : Int) - o) = ((m - o : Nat) : Int) := by
    intro m o h h'
    rw [i16_id (m : Int) (by omega) (by omega), i16_id ((m : Int) - o) (by omega) (by omega)]
    omega
  rw [k _ _ (by omega) (by omega), k _ _ (by omega) (by omega), k _ _ (by omega) (by omega), k _ _ (by omega) (by omega)]

/-- What one domain contributes. -/
theorem piece_ok (p : Rect) (d : CellDims) (g : Grid T) (G : Nat → Nat → T) (f : Frame T) (hG : Holds G d g)
    (hd : d.r0 ≤ d.r1 ∧ d.z0 ≤ d.z1) (h1 : d.r1 < 2 ^ 15) (h2 : d.z1 < 2 ^ 15) (hp : p.r0 ≤ p.r1 ∧ p.z0 ≤ p.z1)
    (hf : f.h = p.r1 - p.r0 ∧ f.w = p.z1 - p.z0) (hne : d.r0 < d.r1)
    (hn1 : d.r1 ≠ p.r0) (hn2 : d.r0 ≠ p.r1) (hpne : p.r0 < p.r1) :
    ∃ f', piece p d g f = .ok f' ∧ f'.h = f.h ∧ f'.w = f.w ∧
      ∀ a b, f'.cell a b = if p.Has (p.r0 + a) (p.z0 + b) ∧ d.Has (p.r0 + a) (p.z0 + b)
        then some (G (p.r0 + a) (p.z0 + b)) else f.cell a b := by
  unfold piece
  by_cases ht : touches p d = true
  · rw [if_pos ht]
    obtain ⟨he, hr, hz⟩ := effective_eq p d h1 h2 hd ht hp
    have ht' := ht
    simp only [touches, decide_eq_true_eq] at ht'
    obtain ⟨t1, t2, t3, t4⟩ := ht'
    have ho : engineOffset p d = (max p.r0 d.r0 - p.r0, max p.z0 d.z0 - p.z0) := by
      unfold engineOffset
      simp only [he]
      refine Prod.ext ?_ ?_
      · simp only
        have : (((max p.r0 d.r0 - d.r0 : Nat) : Int) + d.r0 - p.r0) = ((max p.r0 d.r0 - p.r0 : Nat) : Int) := by omega
        rw [this, Int.emod_eq_of_lt (by omega) (by omega), Int.toNat_natCast]
      · simp only
        have : (((max p.z0 d.z0 - d.z0 : Nat) : Int) + d.z0 - p.z0) = ((max p.z0 d.z0 - p.z0 : Nat) : Int) := by omega
        rw [this, Int.emod_eq_of_lt (by omega) (by omega), Int.toNat_natCast]
    simp only [he]
    have hnn : ¬ ((((min p.r1 d.r1 - d.r0 : Nat) : Int) < (max p.r0 d.r0 - d.r0 : Nat)) ∨
        (((min p.z1 d.z1 - d.z0 : Nat) : Int) < (max p.z0 d.z0 - d.z0 : Nat))) := by omega
    rw [if_neg hnn]
    have er : ((((min p.r1 d.r1 - d.r0 : Nat) : Int) - (max p.r0 d.r0 - d.r0 : Nat))).toNat =
        min p.r1 d.r1 - max p.r0 d.r0 := by omega
    have ez : ((((min p.z1 d.z1 - d.z0 : Nat) : Int) - (max p.z0 d.z0 - d.z0 : Nat))).toNat =
        min p.z1 d.z1 - max p.z0 d.z0 := by omega
    obtain ⟨v, hv, hv'⟩ := loop_read
      (fun a b => g.get (((max p.r0 d.r0 - d.r0 : Nat) : Int) + a) (((max p.z0 d.z0 - d.z0 : Nat) : Int) + b))
      (fun a b => G (max p.r0 d.r0 + a) (max p.z0 d.z0 + b))
      (idx2 0 (min p.r1 d.r1 - max p.r0 d.r0) 0 (min p.z1 d.z1 - max p.z0 d.z0)) (by
        intro q hq
        rw [mem_idx2] at hq
        have := hG (max p.r0 d.r0 - d.r0 + q.1) (max p.z0 d.z0 - d.z0 + q.2) (by omega) (by omega)
        push_cast at this
        have a1 : d.r0 + (max p.r0 d.r0 - d.r0 + q.1) = max p.r0 d.r0 + q.1 := by omega
        have a2 : d.z0 + (max p.z0 d.z0 - d.z0 + q.2) = max p.z0 d.z0 + q.2 := by omega
        rw [a1, a2] at this
        exact this) (fun _ _ => 0)
    have hread : readVal g ⟨(max p.r0 d.r0 - d.r0 : Nat), (max p.z0 d.z0 - d.z0 : Nat), (min p.r1 d.r1 - d.r0 : Nat),
      (min p.z1 d.z1 - d.z0 : Nat)⟩ = .ok v := by
      unfold readVal
      simp only [er, ez]
      exact hv
    rw [hread, Res.ok_bind, er, ez, ho]
    unfold writeRec
    rw [if_neg (show ¬ (min p.r1 d.r1 - max p.r0 d.r0 = 0) by omega), if_pos (by constructor <;> simp only <;> omega)]
    refine ⟨_, rfl, rfl, rfl, ?_⟩
    intro a b
    simp only
    have hiff : ((max p.r0 d.r0 - p.r0 ≤ a ∧ a < max p.r0 d.r0 - p.r0 + (min p.r1 d.r1 - max p.r0 d.r0)) ∧
        (max p.z0 d.z0 - p.z0 ≤ b ∧ b < max p.z0 d.z0 - p.z0 + (min p.z1 d.z1 - max p.z0 d.z0))) ↔
        (p.Has (p.r0 + a) (p.z0 + b) ∧ d.Has (p.r0 + a) (p.z0 + b)) := by
      unfold Rect.Has CellDims.Has
      omega
    by_cases hin : p.Has (p.r0 + a) (p.z0 + b) ∧ d.Has (p.r0 + a) (p.z0 + b)
    · rw [if_pos (hiff.mpr hin), if_pos hin, hv', if_pos]
      · obtain ⟨⟨x1, x2⟩, x3, x4⟩ := hiff.mpr hin
        have a1 : max p.r0 d.r0 + (a - (max p.r0 d.r0 - p.r0)) = p.r0 + a := by omega
        have a2 : max p.z0 d.z0 + (b - (max p.z0 d.z0 - p.z0)) = p.z0 + b := by omega
        rw [a1, a2]
      · rw [mem_idx2]
        obtain ⟨⟨x1, x2⟩, x3, x4⟩ := hiff.mpr hin
        simp only
        omega
    · rw [if_neg (fun h => hin (hiff.mp h)), if_neg hin]
  · rw [if_neg ht]
    refine ⟨f, rfl, rfl, rfl, ?_⟩
    intro a b
    rw [if_neg]
    rintro ⟨h3, h4⟩
    apply ht
    unfold Rect.Has at h3
    unfold CellDims.Has at h4
    simp only [touches, decide_eq_true_eq]
    omega

/-- Conditions on the subdivision under which C44 is stated: one process, at least one cell per domain, fewer than
32768 cells in each direction. -/
structure Sane (g : Geo) : Prop where
  offR : g.offR = 0
  offZ : g.offZ = 0
  posR : 0 < g.domR
  posZ : 0 < g.domZ
  leR : g.domR ≤ g.nr
  leZ : g.domZ ≤ g.nz
  smallR : g.nr < 2 ^ 15
  smallZ : g.nz < 2 ^ 15

theorem dims_ok (g : Geo) (hg : Sane g) (i j : Nat) (hi : i < g.domR) (hj : j < g.domZ) :
    (domDims g i j).r0 < (domDims g i j).r1 ∧ (domDims g i j).z0 < (domDims g i j).z1 ∧
      (domDims g i j).r1 ≤ g.nr ∧ (domDims g i j).z1 ≤ g.nz := by
  have b1 := bound_lt g.nr g.domR g.offR i hg.posR hg.leR
  have b2 := bound_lt g.nz g.domZ g.offZ j hg.posZ hg.leZ
  have b3 := bound_mono g.nr g.domR g.offR (show i + 1 ≤ g.domR by omega)
  have b4 := bound_mono g.nz g.domZ g.offZ (show j + 1 ≤ g.domZ by omega)
  rw [bound_last _ _ _ hg.posR, hg.offR] at b3
  rw [bound_last _ _ _ hg.posZ, hg.offZ] at b4
  rw [hg.offR] at b1
  rw [hg.offZ] at b2
  unfold domDims
  simp only [hg.offR, hg.offZ]
  omega

/-- **C44 (partial).**  A rectangular probe inside of the area whose lower and upper radial edge do not lie on an inner
boundary between domains: for every subdivision the frame in the file has at (a, b) exactly the value of cell
(start r + a, start z + b), for all cells of the rectangle and no others.
Missing: edges on a domain boundary and areas of 32768 cells or more, see the theorems below. -/
theorem C44_partial (p : Rect) (g : Geo) (hg : Sane g) (vals : Nat → Nat → Grid T) (G : Nat → Nat → T)
    (hv : ∀ i j, i < g.domR → j < g.domZ → Holds G (domDims g i j) (vals i j))
    (hp : p.r0 < p.r1 ∧ p.z0 ≤ p.z1) (hin : p.r1 ≤ g.nr ∧ p.z1 ≤ g.nz)
    (hedge : ∀ i, 0 < i → i < g.domR → bound g.nr g.domR 0 i ≠ p.r0 ∧ bound g.nr g.domR 0 i ≠ p.r1) :
    ∃ f, assemble p g vals = .ok f ∧ ∀ a b, f.cell a b =
      if p.Has (p.r0 + a) (p.z0 + b) then some (G (p.r0 + a) (p.z0 + b)) else none := by
  have main : ∀ (l : List (Nat × Nat)), (∀ q ∈ l, q.1 < g.domR ∧ q.2 < g.domZ) → ∀ f : Frame T,
      (f.h = p.r1 - p.r0 ∧ f.w = p.z1 - p.z0) →
      ∃ f', loop (fun (q : Nat × Nat) f => piece p (domDims g q.1 q.2) (vals q.1 q.2) f) l f = .ok f' ∧
        ∀ a b, f'.cell a b = if p.Has (p.r0 + a) (p.z0 + b) ∧ ∃ q ∈ l, (domDims g q.1 q.2).Has (p.r0 + a) (p.z0 + b)
          then some (G (p.r0 + a) (p.z0 + b)) else f.cell a b := by
    intro l
    induction l with
    | nil => intro _ f _; exact ⟨f, rfl, by simp⟩
    | cons q l ih =>
      intro hl f hf
      obtain ⟨hi, hj⟩ := hl q (List.mem_cons_self ..)
      obtain ⟨d1, d2, d3, d4⟩ := dims_ok g hg q.1 q.2 hi hj
      have hsr := hg.smallR
      have hsz := hg.smallZ
      have hn1 : (domDims g q.1 q.2).r1 ≠ p.r0 := by
        by_cases hq : q.1 + 1 < g.domR
        · have := (hedge (q.1 + 1) (by omega) hq).1
          unfold domDims
          simp only [hg.offR]
          exact this
        · have h1 : q.1 + 1 = g.domR := by omega
          have : (domDims g q.1 q.2).r1 = g.nr := by
            unfold domDims
            simp only [h1]
            rw [bound_last _ _ _ hg.posR, hg.offR, Nat.add_zero]
          omega
      have hn2 : (domDims g q.1 q.2).r0 ≠ p.r1 := by
        by_cases hq : q.1 = 0
        · have : (domDims g q.1 q.2).r0 = 0 := by
            unfold domDims
            simp only [hq, bound_zero, hg.offR]
          omega
        · have := (hedge q.1 (by omega) hi).2
          unfold domDims
          simp only [hg.offR]
          exact this
      obtain ⟨f1, e1, e2, e3, e4⟩ := piece_ok p (domDims g q.1 q.2) (vals q.1 q.2) G f (hv _ _ hi hj)
        ⟨by omega, by omega⟩ (by omega) (by omega) ⟨by omega, by omega⟩ hf d1 hn1 hn2 hp.1
      obtain ⟨f2, k1, k2⟩ := ih (fun q' hq' => hl q' (List.mem_cons_of_mem _ hq')) f1 ⟨by rw [e2]; exact hf.1, by rw [e3]; exact hf.2⟩
      refine ⟨f2, ?_, ?_⟩
      · rw [loop_cons, e1, Res.ok_bind, k1]
      · intro a b
        rw [k2, e4]
        by_cases h1 : p.Has (p.r0 + a) (p.z0 + b) <;> by_cases h2 : (domDims g q.1 q.2).Has (p.r0 + a) (p.z0 + b) <;>
          by_cases h3 : ∃ q' ∈ l, (domDims g q'.1 q'.2).Has (p.r0 + a) (p.z0 + b) <;> simp [h1, h2, h3]
  obtain ⟨f, h1, h2⟩ := main (idx2 0 g.domR 0 g.domZ) (fun q hq => by rw [mem_idx2] at hq; exact ⟨hq.1.2, hq.2.2⟩)
    ⟨p.r1 - p.r0, p.z1 - p.z0, fun _ _ => none⟩ ⟨rfl, rfl⟩
  refine ⟨f, h1, ?_⟩
  intro a b
  rw [h2]
  by_cases hh : p.Has (p.r0 + a) (p.z0 + b)
  · rw [if_pos hh, if_pos]
    refine ⟨hh, ?_⟩
    have hh' := hh
    unfold Rect.Has at hh'
    obtain ⟨q, ⟨hq1, hq2, hq3⟩, _⟩ := (C07_partition g hg.posR hg.posZ (p.r0 + a) (p.z0 + b)).1
      (by rw [hg.offR, hg.offZ]; omega)
    exact ⟨q, by rw [mem_idx2]; omega, hq3⟩
  · rw [if_neg hh, if_neg (fun h => hh h.1)]

/-- A loop whose steps are fine or undefined is undefined as soon as one step is. -/
theorem loop_ub {ι σ : Type _} (body : ι → σ → Res σ) (P : σ → Prop) (l : List ι)
    (h : ∀ i ∈ l, ∀ s, P s → body i s = .ub ∨ ∃ s', body i s = .ok s' ∧ P s') (i : ι) (hi : i ∈ l)
    (hub : ∀ s, P s → body i s = .ub) (s : σ) (hs : P s) : loop body l s = .ub := by
  induction l generalizing s with
  | nil => cases hi
  | cons a l ih =>
    rw [loop_cons]
    rcases h a (List.mem_cons_self ..) s hs with hu | ⟨s', hs', hP⟩
    · rw [hu]; rfl
    · rw [hs', Res.ok_bind]
      rcases List.mem_cons.mp hi with rfl | hi'
      · rw [hub s hs] at hs'; cases hs'
      · exact ih (fun j hj => h j (List.mem_cons_of_mem _ hj)) hi' s' hP

/-- A domain that shares no row with the rectangle writes a matrix without rows. -/
theorem piece_no_rows (p : Rect) (d : CellDims) (g : Grid T) (f : Frame T)
    (hd : d.r0 ≤ d.r1 ∧ d.z0 ≤ d.z1) (h1 : d.r1 < 2 ^ 15) (h2 : d.z1 < 2 ^ 15) (hp : p.r0 ≤ p.r1 ∧ p.z0 ≤ p.z1)
    (ht : touches p d = true) (he : min p.r1 d.r1 ≤ max p.r0 d.r0) : piece p d g f = .ub := by
  unfold piece
  rw [if_pos ht]
  obtain ⟨hf, hr, hz⟩ := effective_eq p d h1 h2 hd ht hp
  simp only [hf]
  have hnn : ¬ ((((min p.r1 d.r1 - d.r0 : Nat) : Int) < (max p.r0 d.r0 - d.r0 : Nat)) ∨
        (((min p.z1 d.z1 - d.z0 : Nat) : Int) < (max p.z0 d.z0 - d.z0 : Nat))) := by omega
  rw [if_neg hnn]
  have er : ((((min p.r1 d.r1 - d.r0 : Nat) : Int) - (max p.r0 d.r0 - d.r0 : Nat))).toNat = 0 := by omega
  have hread : readVal g ⟨(max p.r0 d.r0 - d.r0 : Nat), (max p.z0 d.z0 - d.z0 : Nat), (min p.r1 d.r1 - d.r0 : Nat),
      (min p.z1 d.z1 - d.z0 : Nat)⟩ = .ok (fun _ _ => 0) := by
    unfold readVal
    simp only [er]
    simp [idx2, loop]
  rw [hread, Res.ok_bind, er]
  unfold writeRec
  rw [if_pos rfl]

theorem piece_edge (p : Rect) (d : CellDims) (g : Grid T) (f : Frame T)
    (hd : d.r0 ≤ d.r1 ∧ d.z0 ≤ d.z1) (h1 : d.r1 < 2 ^ 15) (h2 : d.z1 < 2 ^ 15) (hp : p.r0 ≤ p.r1 ∧ p.z0 ≤ p.z1)
    (ht : touches p d = true) (he : d.r1 = p.r0 ∨ d.r0 = p.r1) : piece p d g f = .ub :=
  piece_no_rows p d g f hd h1 h2 hp ht (by omega)

/-- Where C44 fails: if the lower or the upper radial edge of the rectangle lies on an inner boundary between two
domains, the domain on the other side of that boundary takes part with a matrix without rows, whose first row the
writer then accesses: undefined behaviour, for every content of the grids. -/
theorem C44_edge_fails (p : Rect) (g : Geo) (hg : Sane g) (vals : Nat → Nat → Grid T) (G : Nat → Nat → T)
    (hv : ∀ i j, i < g.domR → j < g.domZ → Holds G (domDims g i j) (vals i j))
    (hp : p.r0 < p.r1 ∧ p.z0 ≤ p.z1) (hin : p.r1 ≤ g.nr ∧ p.z1 ≤ g.nz)
    (i : Nat) (hi0 : 0 < i) (hi : i < g.domR) (hedge : bound g.nr g.domR 0 i = p.r0 ∨ bound g.nr g.domR 0 i = p.r1) :
    assemble p g vals = .ub := by
  have hsr := hg.smallR
  have hsz := hg.smallZ
  -- a domain in whose z range the rectangle starts
  obtain ⟨j, hj, hj1⟩ : ∃ j, j < g.domZ ∧ (bound g.nz g.domZ 0 j ≤ p.z0 ∧ p.z0 ≤ bound g.nz g.domZ 0 (j + 1)) := by
    by_cases hz : p.z0 < g.nz
    · obtain ⟨j, hj, a, b⟩ := exists_part (bound g.nz g.domZ 0) g.domZ p.z0 (by rw [bound_zero]; omega)
        (by rw [bound_last _ _ _ hg.posZ]; omega)
      exact ⟨j, hj, a, by omega⟩
    · refine ⟨g.domZ - 1, by have := hg.posZ; omega, ?_⟩
      have e : g.domZ - 1 + 1 = g.domZ := by have := hg.posZ; omega
      have b := bound_lt g.nz g.domZ 0 (g.domZ - 1) hg.posZ hg.leZ
      rw [e, bound_last _ _ _ hg.posZ] at *
      omega
  obtain ⟨q, hq, hqt, hqe⟩ : ∃ q : Nat × Nat, (q.1 < g.domR ∧ q.2 < g.domZ) ∧ touches p (domDims g q.1 q.2) = true ∧
      ((domDims g q.1 q.2).r1 = p.r0 ∨ (domDims g q.1 q.2).r0 = p.r1) := by
    rcases hedge with he | he
    · refine ⟨(i - 1, j), ⟨by simp only; omega, hj⟩, ?_, ?_⟩
      · have b := bound_lt g.nr g.domR 0 (i - 1) hg.posR hg.leR
        have e : i - 1 + 1 = i := by omega
        simp only [touches, decide_eq_true_eq, domDims, hg.offR, hg.offZ, e]
        rw [e] at b
        omega
      · left
        have e : i - 1 + 1 = i := by omega
        simp only [domDims, hg.offR, e]
        exact he
    · refine ⟨(i, j), ⟨hi, hj⟩, ?_, ?_⟩
      · have b := bound_lt g.nr g.domR 0 i hg.posR hg.leR
        simp only [touches, decide_eq_true_eq, domDims, hg.offR, hg.offZ]
        omega
      · right
        simp only [domDims, hg.offR]
        exact he
  unfold assemble
  refine loop_ub _ (fun f => f.h = p.r1 - p.r0 ∧ f.w = p.z1 - p.z0) _ ?_ q (by rw [mem_idx2]; omega) ?_ _ ⟨rfl, rfl⟩
  · intro q' hq' f hf
    rw [mem_idx2] at hq'
    obtain ⟨d1, d2, d3, d4⟩ := dims_ok g hg q'.1 q'.2 hq'.1.2 hq'.2.2
    by_cases he : (domDims g q'.1 q'.2).r1 = p.r0 ∨ (domDims g q'.1 q'.2).r0 = p.r1
    · by_cases ht : touches p (domDims g q'.1 q'.2) = true
      · exact Or.inl (piece_edge p _ _ f ⟨by omega, by omega⟩ (by omega) (by omega) ⟨by omega, by omega⟩ ht he)
      · right
        refine ⟨f, ?_, hf⟩
        unfold piece
        rw [if_neg ht]
    · right
      obtain ⟨f1, e1, e2, e3, _⟩ := piece_ok p (domDims g q'.1 q'.2) (vals q'.1 q'.2) G f (hv _ _ hq'.1.2 hq'.2.2)
        ⟨by omega, by omega⟩ (by omega) (by omega) ⟨by omega, by omega⟩ hf d1 (fun h => he (Or.inl h)) (fun h => he (Or.inr h)) hp.1
      exact ⟨f1, e1, by rw [e2]; exact hf.1, by rw [e3]; exact hf.2⟩
  · intro f hf
    obtain ⟨d1, d2, d3, d4⟩ := dims_ok g hg q.1 q.2 hq.1 hq.2
    exact piece_edge p _ _ f ⟨by omega, by omega⟩ (by omega) (by omega) ⟨by omega, by omega⟩ hqt hqe

/-- Where C44 fails: positions are kept in `short`.  A probe from the axis to a radius of 32768 up to 65535 cells ends the
process (one domain). -/
theorem C44_short_fails (p : Rect) (g : Geo) (vals : Nat → Nat → Grid T)
    (h1 : g.domR = 1 ∧ g.domZ = 1) (ho : g.offR = 0 ∧ g.offZ = 0) (h0 : p.r0 = 0 ∧ p.z0 = 0)
    (hin : p.r1 ≤ g.nr ∧ p.z1 ≤ g.nz) (hb : 2 ^ 15 ≤ p.r1 ∧ p.r1 < 2 ^ 16) : assemble p g vals = .fatal := by
  have hd : domDims g 0 0 = ⟨0, 0, g.nr, g.nz⟩ := by
    simp [domDims, bound, h1.1, h1.2, ho.1, ho.2]
  unfold assemble
  rw [h1.1, h1.2]
  have hl : idx2 0 1 0 1 = [(0, 0)] := by decide
  rw [hl, loop_cons]
  simp only [hd]
  unfold piece
  rw [if_pos (by simp only [touches, decide_eq_true_eq]; omega)]
  have e : (effective p ⟨0, 0, g.nr, g.nz⟩).a1 < (effective p ⟨0, 0, g.nr, g.nz⟩).a0 := by
    unfold effective
    simp only [h0.1]
    rw [if_neg (show ¬ (p.r1 > g.nr) by omega)]
    simp only [i16]
    simp
    omega
  simp only
  rw [if_pos (Or.inl e)]
  rfl

end

/-- An 8 by 6 area in 3 by 2 domains and the rectangle from (1, 2) to (7, 5): all hypotheses of `C44_partial` hold, and
the rectangle spans six domains. -/
def exGeo : Geo := ⟨8, 6, 0, 0, 3, 2, ⟨true, true, true, true⟩, 8, 6, 0, 0, 0⟩

/-- Grid of a domain holding the number `100 r + z` at cell `(r, z)`. -/
def exVal (i j : Nat) : Grid Int :=
  let d := domDims exGeo i j
  ⟨2, d.r1 - d.r0, d.z1 - d.z0, fun a b => 100 * ((d.r0 : Int) + a - 2) + (d.z0 + b - 2)⟩

theorem exHolds (i j : Nat) (hi : i < 3) (hj : j < 2) :
    Holds (fun r z => 100 * (r : Int) + z) (domDims exGeo i j) (exVal i j) := by
  intro a b ha hb
  have hr : (domDims exGeo i j).r1 ≤ 8 := (dims_ok exGeo ⟨rfl, rfl, by decide, by decide, by decide, by decide, by decide, by decide⟩ i j hi hj).2.2.1
  have hz : (domDims exGeo i j).z1 ≤ 6 := (dims_ok exGeo ⟨rfl, rfl, by decide, by decide, by decide, by decide, by decide, by decide⟩ i j hi hj).2.2.2
  unfold Grid.get Grid.rd Grid.uidx
  have e1 : (((a : Int) + (exVal i j).os) % 2 ^ 32).toNat = a + 2 := by simp only [exVal]; omega
  have e2 : (((b : Int) + (exVal i j).os) % 2 ^ 32).toNat = b + 2 := by simp only [exVal]; omega
  rw [e1, e2, if_pos]
  · simp only [exVal]
    push_cast
    congr 1
    ring
  · simp only [Grid.xr, Grid.yr, exVal]
    omega

example : ∃ f, assemble ⟨1, 2, 7, 5⟩ exGeo exVal = .ok f ∧ f.cell 0 0 = some 102 ∧ f.cell 5 2 = some 604 ∧ f.cell 6 0 = none := by
  obtain ⟨f, h1, h2⟩ := C44_partial ⟨1, 2, 7, 5⟩ exGeo
    ⟨rfl, rfl, by decide, by decide, by decide, by decide, by decide, by decide⟩ exVal (fun r z => 100 * (r : Int) + z)
    exHolds (by decide) (by decide) (fun i h1 h2 => by
      have : i = 1 ∨ i = 2 := by simp only [exGeo] at h2; omega
      rcases this with rfl | rfl <;> decide)
  exact ⟨f, h1, by rw [h2]; decide, by rw [h2]; decide, by rw [h2]; decide⟩

/-- The inner boundaries of that area are at 2 and 5: a rectangle from 2 is undefined. -/
example : assemble ⟨2, 2, 7, 5⟩ exGeo exVal = .ub :=
  C44_edge_fails ⟨2, 2, 7, 5⟩ exGeo ⟨rfl, rfl, by decide, by decide, by decide, by decide, by decide, by decide⟩ exVal
    (fun r z => 100 * (r : Int) + z) exHolds (by decide) (by decide) 1 (by decide) (by decide) (Or.inl (by decide))

/-! ## C46: configuration -/

section
variable {K : Type _} [Field K] [LinearOrder K] [IsStrictOrderedRing K] [FloorRing K]

theorem toSize_ok (x : K) (h0 : 0 ≤ x) (h1 : x < 2 ^ 64) : toSize x = .ok ⌊x⌋₊ := by
  unfold toSize
  rw [if_neg]
  rintro (h | h)
  · linarith
  · exact absurd h (not_le.mpr h1)

/-- **C46 (partial), configuration.**  A rectangle given by non-negative numbers is accepted exactly when its corners
are ordered and its end lies inside of the area, then with its numbers rounded down; all others abort the program.
Missing: the other shapes, see `C46_shapes_fails`. -/
theorem C46_rect_partial (nr nz : Nat) (r0 z0 r1 z1 : K) (h0 : 0 ≤ r0 ∧ 0 ≤ z0 ∧ 0 ≤ r1 ∧ 0 ≤ z1)
    (h1 : r0 < 2 ^ 64 ∧ z0 < 2 ^ 64 ∧ r1 < 2 ^ 64 ∧ z1 < 2 ^ 64) :
    ((⌊r0⌋₊ ≤ ⌊r1⌋₊ ∧ ⌊z0⌋₊ ≤ ⌊z1⌋₊ ∧ ⌊r1⌋₊ ≤ nr ∧ ⌊z1⌋₊ ≤ nz) →
      initProbe nr nz (.rect r0 z0 r1 z1) = .ok ⟨⌊r0⌋₊, ⌊z0⌋₊, ⌊r1⌋₊, ⌊z1⌋₊⟩) ∧
    (¬ (⌊r0⌋₊ ≤ ⌊r1⌋₊ ∧ ⌊z0⌋₊ ≤ ⌊z1⌋₊ ∧ ⌊r1⌋₊ ≤ nr ∧ ⌊z1⌋₊ ≤ nz) →
      initProbe nr nz (.rect r0 z0 r1 z1) = .fatal) := by
  unfold initProbe
  simp only [toSize_ok r0 h0.1 h1.1, toSize_ok z0 h0.2.1 h1.2.1, toSize_ok r1 h0.2.2.1 h1.2.2.1,
    toSize_ok z1 h0.2.2.2 h1.2.2.2, Res.ok_bind, checkRect]
  constructor
  · intro h
    rw [if_neg (by omega), if_neg (by omega), if_neg (by omega)]
  · intro h
    by_cases a : ⌊r0⌋₊ > ⌊r1⌋₊ ∨ ⌊z0⌋₊ > ⌊z1⌋₊
    · rw [if_pos a]
    · rw [if_neg a]
      by_cases b : ⌊r1⌋₊ > nr
      · rw [if_pos b]
      · rw [if_neg b, if_pos (by omega)]

example : initProbe 64 256 (.rect (0 : ℚ) 0 64 256) = .ok ⟨0, 0, 64, 256⟩ := by
  have := (C46_rect_partial 64 256 (0 : ℚ) 0 64 256 (by norm_num) (by norm_num)).1
  have e1 : ⌊(64 : ℚ)⌋₊ = 64 := by decide +kernel
  have e2 : ⌊(256 : ℚ)⌋₊ = 256 := by decide +kernel
  have e3 : ⌊(0 : ℚ)⌋₊ = 0 := by decide +kernel
  rw [e1, e2, e3] at this
  exact this (by decide)

/-- Where C46 fails: every column, row and dot probe, valid or not, and every start or end at -1 or below is undefined
behaviour instead of a probe or a message. -/
theorem C46_shapes_fails (nr nz : Nat) (r z a b c : K) :
    initProbe nr nz (.col z : Desc K) = .ub ∧ initProbe nr nz (.row r : Desc K) = .ub ∧
      initProbe nr nz (.dot r z) = .ub ∧ (r ≤ -1 → initProbe nr nz (.rect r a b c) = .ub) := by
  refine ⟨rfl, rfl, rfl, ?_⟩
  intro h
  have : toSize r = .ub := by unfold toSize; rw [if_pos (Or.inl h)]
  unfold initProbe
  simp only [this, Res.ub_bind]

/-- Where C46 fails: a rectangle without rows (`start r = end r`) is accepted, and its first frame is undefined
behaviour. -/
theorem C46_empty_fails {T : Type _} [Zero T] (r z0 z1 : Nat) (g : Geo) (hg : Sane g) (hr : r ≤ g.nr) (hz : z0 ≤ z1)
    (hz' : z1 ≤ g.nz) (vals : Nat → Nat → Grid T) :
    checkRect g.nr g.nz ⟨r, z0, r, z1⟩ = .ok ⟨r, z0, r, z1⟩ ∧ assemble ⟨r, z0, r, z1⟩ g vals = .ub := by
  have part : ∀ n d c, 0 < d → d ≤ n → c ≤ n → ∃ i, i < d ∧ bound n d 0 i ≤ c ∧ c ≤ bound n d 0 (i + 1) := by
    intro n d c hd hn hc
    by_cases h : c < n
    · obtain ⟨i, hi, a, b⟩ := exists_part (bound n d 0) d c (by rw [bound_zero]; omega) (by rw [bound_last _ _ _ hd]; omega)
      exact ⟨i, hi, a, by omega⟩
    · have e : d - 1 + 1 = d := by omega
      have b := bound_lt n d 0 (d - 1) hd hn
      refine ⟨d - 1, by omega, ?_⟩
      rw [e, bound_last _ _ _ hd] at *
      omega
  constructor
  · unfold checkRect
    rw [if_neg (by simp only; omega), if_neg (by simp only; omega), if_neg (by simp only; omega)]
  · have hsr := hg.smallR
    have hsz := hg.smallZ
    obtain ⟨i, hi, i1, i2⟩ := part g.nr g.domR r hg.posR hg.leR hr
    obtain ⟨j, hj, j1, j2⟩ := part g.nz g.domZ z0 hg.posZ hg.leZ (by omega)
    have hub : ∀ (q : Nat × Nat), q.1 < g.domR → q.2 < g.domZ → touches ⟨r, z0, r, z1⟩ (domDims g q.1 q.2) = true →
        ∀ f, piece ⟨r, z0, r, z1⟩ (domDims g q.1 q.2) (vals q.1 q.2) f = .ub := by
      intro q h1 h2 ht f
      obtain ⟨d1, d2, d3, d4⟩ := dims_ok g hg q.1 q.2 h1 h2
      refine piece_no_rows _ _ _ f ⟨by omega, by omega⟩ (by omega) (by omega) ⟨le_refl _, hz⟩ ht ?_
      simp only [touches, decide_eq_true_eq] at ht
      simp only
      omega
    unfold assemble
    refine loop_ub _ (fun _ => True) _ ?_ (i, j) (by rw [mem_idx2]; simp only; omega) ?_ _ trivial
    · intro q hq f _
      rw [mem_idx2] at hq
      by_cases ht : touches ⟨r, z0, r, z1⟩ (domDims g q.1 q.2) = true
      · exact Or.inl (hub q hq.1.2 hq.2.2 ht f)
      · right
        refine ⟨f, ?_, trivial⟩
        unfold piece
        rw [if_neg ht]
    · intro f _
      refine hub (i, j) hi hj ?_ f
      simp only [touches, decide_eq_true_eq, domDims, hg.offR, hg.offZ]
      omega
end

/-! ## C46, C73: paths -/

theorem digitChar_inj {a b : Nat} (ha : a < 10) (hb : b < 10) (h : Nat.digitChar a = Nat.digitChar b) : a = b := by
  have key : ∀ x < 10, ∀ y < 10, Nat.digitChar x = Nat.digitChar y → x = y := by decide
  exact key a ha b hb h

theorem digitChar_digit {a : Nat} (ha : a < 10) : Nat.digitChar a ≠ '/' ∧ Nat.digitChar a ≠ '-' ∧ Nat.digitChar a ≠ '_' ∧
    Nat.digitChar a ≠ '\\' := by
  have key : ∀ x < 10, Nat.digitChar x ≠ '/' ∧ Nat.digitChar x ≠ '-' ∧ Nat.digitChar x ≠ '_' ∧
    Nat.digitChar x ≠ '\\' := by decide
  exact key a ha

theorem dec_clean (n : Nat) {c : Char} (h : c ∈ dec n) : c ≠ '/' ∧ c ≠ '-' ∧ c ≠ '_' ∧ c ≠ '\\' := by
  unfold dec at h
  split at h
  · simp only [List.mem_singleton] at h
    subst h
    decide
  · obtain ⟨d, hd, rfl⟩ := List.mem_map.mp h
    exact digitChar_digit (Nat.digits_lt_base (by norm_num) (List.mem_reverse.mp hd))

theorem map_digitChar_inj : ∀ (a b : List Nat), (∀ x ∈ a, x < 10) → (∀ x ∈ b, x < 10) →
    a.map Nat.digitChar = b.map Nat.digitChar → a = b
  | [], [], _, _, _ => rfl
  | [], _ :: _, _, _, h => by simp at h
  | _ :: _, [], _, _, h => by simp at h
  | x :: a, y :: b, ha, hb, h => by
    simp only [List.map_cons, List.cons.injEq] at h
    rw [digitChar_inj (ha x (List.mem_cons_self ..)) (hb y (List.mem_cons_self ..)) h.1,
      map_digitChar_inj a b (fun z hz => ha z (List.mem_cons_of_mem _ hz)) (fun z hz => hb z (List.mem_cons_of_mem _ hz)) h.2]

theorem dec_zero_ne (m : Nat) (hm : m ≠ 0) : dec m ≠ ['0'] := by
  intro h
  unfold dec at h
  rw [if_neg hm] at h
  have h' : (Nat.digits 10 m).reverse.map Nat.digitChar = [0].map Nat.digitChar := h
  have := map_digitChar_inj _ _ (fun x hx => Nat.digits_lt_base (by norm_num) (List.mem_reverse.mp hx)) (by simp) h'
  have h2 : Nat.digits 10 m = [0] := by rw [← List.reverse_reverse (Nat.digits 10 m), this]; rfl
  have h3 := Nat.ofDigits_digits 10 m
  rw [h2] at h3
  simp at h3
  exact hm h3.symm

theorem dec_inj {n m : Nat} (h : dec n = dec m) : n = m := by
  by_cases hn : n = 0
  · by_cases hm : m = 0
    · rw [hn, hm]
    · exfalso
      refine dec_zero_ne m hm ?_
      rw [← h, hn]
      rfl
  · by_cases hm : m = 0
    · exfalso
      refine dec_zero_ne n hn ?_
      rw [h, hm]
      rfl
    · unfold dec at h
      rw [if_neg hn, if_neg hm] at h
      have := map_digitChar_inj _ _ (fun x hx => Nat.digits_lt_base (by norm_num) (List.mem_reverse.mp hx))
        (fun x hx => Nat.digits_lt_base (by norm_num) (List.mem_reverse.mp hx)) h
      exact Nat.digits_inj_iff.mp (List.reverse_injective this)

/-- Cutting at the first occurrence of a character. -/
theorem cut_first {c : Char} : ∀ {x y t u : List Char}, c ∉ x → c ∉ y → x ++ c :: t = y ++ c :: u → x = y ∧ t = u
  | [], [], _, _, _, _, h => by simpa using h
  | [], b :: y, _, _, _, hy, h => by
    simp only [List.nil_append, List.cons_append, List.cons.injEq] at h
    exact absurd (h.1 ▸ List.mem_cons_self ..) hy
  | a :: x, [], _, _, hx, _, h => by
    simp only [List.nil_append, List.cons_append, List.cons.injEq] at h
    exact absurd (h.1 ▸ List.mem_cons_self ..) hx
  | a :: x, b :: y, _, _, hx, hy, h => by
    simp only [List.cons_append, List.cons.injEq] at h
    obtain ⟨h1, h2⟩ := cut_first (fun m => hx (List.mem_cons_of_mem _ m)) (fun m => hy (List.mem_cons_of_mem _ m)) h.2
    exact ⟨by rw [h.1, h1], h2⟩

/-- Cutting at the last occurrence of a character. -/
theorem cut_last {c : Char} {x y t u : List Char} (ht : c ∉ t) (hu : c ∉ u) (h : x ++ c :: t = y ++ c :: u) :
    x = y ∧ t = u := by
  have h' := congrArg List.reverse h
  simp only [List.reverse_append, List.reverse_cons, List.append_assoc, List.singleton_append] at h'
  obtain ⟨h1, h2⟩ := cut_first (by simpa using ht) (by simpa using hu) h'
  exact ⟨List.reverse_injective h2, List.reverse_injective h1⟩

/-- Name of a shape and its numbers, the two last parts of a path. -/
def shapeName : Shape → List Char
  | .rect _ => ['r', 'e', 'c']
  | .col _ => ['c', 'o', 'l']
  | .row _ => ['r', 'o', 'w']
  | .dot _ _ => ['d', 'o', 't']

def shapeNumbers : Shape → List Char
  | .rect p => dec p.r0 ++ '-' :: (dec p.r1 ++ '_' :: (dec p.z0 ++ '-' :: dec p.z1))
  | .col z => dec z
  | .row r => dec r
  | .dot r z => dec r ++ '_' :: dec z

theorem pathTail_eq (s : Shape) : pathTail s = shapeName s ++ '/' :: shapeNumbers s := by
  cases s <;> simp [pathTail, shapeName, shapeNumbers]

theorem not_mem_dec (n : Nat) : '/' ∉ dec n ∧ '-' ∉ dec n ∧ '_' ∉ dec n ∧ '\\' ∉ dec n :=
  ⟨fun h => (dec_clean n h).1 rfl, fun h => (dec_clean n h).2.1 rfl, fun h => (dec_clean n h).2.2.1 rfl,
    fun h => (dec_clean n h).2.2.2 rfl⟩

theorem numbers_clean (s : Shape) : '/' ∉ shapeNumbers s ∧ '\\' ∉ shapeNumbers s := by
  cases s <;> simp [shapeNumbers, not_mem_dec]

theorem name_clean (s : Shape) : '/' ∉ shapeName s := by
  cases s <;> simp [shapeName]

theorem numbers_inj {s t : Shape} (hn : shapeName s = shapeName t) (h : shapeNumbers s = shapeNumbers t) : s = t := by
  cases s <;> cases t <;> first
    | (exfalso; simp [shapeName] at hn; done)
    | skip
  · rename_i p q
    obtain ⟨a, b, c, d⟩ := p
    obtain ⟨a', b', c', d'⟩ := q
    simp only [shapeNumbers] at h
    obtain ⟨h1, h⟩ := cut_first (not_mem_dec _).2.1 (not_mem_dec _).2.1 h
    obtain ⟨h2, h⟩ := cut_first (not_mem_dec _).2.2.1 (not_mem_dec _).2.2.1 h
    obtain ⟨h3, h4⟩ := cut_first (not_mem_dec _).2.1 (not_mem_dec _).2.1 h
    rw [dec_inj h1, dec_inj h2, dec_inj h3, dec_inj h4]
  · simp only [shapeNumbers] at h
    rw [dec_inj h]
  · simp only [shapeNumbers] at h
    rw [dec_inj h]
  · simp only [shapeNumbers] at h
    obtain ⟨h1, h2⟩ := cut_first (not_mem_dec _).2.2.1 (not_mem_dec _).2.2.1 h
    rw [dec_inj h1, dec_inj h2]

/-- Neither of two lists is a prefix of the other. -/
def Apart (a b : List Char) : Prop := ¬ a <+: b ∧ ¬ b <+: a

theorem known_apart : ∀ c ∈ fieldBased ++ specieBased, ∀ c' ∈ fieldBased ++ specieBased, c ≠ c' →
    ¬ (c ++ ['/']) <+: (c' ++ ['/']) ∧ ¬ (c' ++ ['/']) <+: (c ++ ['/']) := by decide +kernel

theorem prefix_total {α : Type _} : ∀ {a b x y : List α}, a ++ x = b ++ y → a <+: b ∨ b <+: a
  | [], b, _, _, _ => Or.inl (List.nil_prefix)
  | a :: as, [], _, _, _ => Or.inr (List.nil_prefix)
  | a :: as, b :: bs, x, y, h => by
    simp only [List.cons_append, List.cons.injEq] at h
    rcases prefix_total h.2 with h' | h'
    · left; rw [h.1]; exact (List.prefix_cons_inj b).mpr h'
    · right; rw [h.1]; exact (List.prefix_cons_inj b).mpr h'

theorem head_inj {c c' s s' : List Char} (hc : c ∈ fieldBased ++ specieBased) (hc' : c' ∈ fieldBased ++ specieBased)
    (h : pathHead c s = pathHead c' s') : c = c' ∧ (c ∈ specieBased → s = s') := by
  have e : c = c' := by
    by_contra hne
    obtain ⟨k1, k2⟩ := known_apart c hc c' hc' hne
    unfold pathHead at h
    rcases prefix_total h with h' | h'
    · exact k1 h'
    · exact k2 h'
  refine ⟨e, ?_⟩
  intro hs
  subst e
  unfold pathHead at h
  rw [if_pos hs, if_pos hs] at h
  exact List.append_cancel_right (List.append_cancel_left h)

/-- **C46, paths.**  Two probes of known components have the same path in the output file only if they have the same
component, the same shape with the same numbers and, for components that belong to a species, the same species.  (Any
names of species, also with delimiters in them.) -/
theorem C73_paths_distinct (c c' s s' : List Char) (sh sh' : Shape) (hc : c ∈ fieldBased ++ specieBased)
    (hc' : c' ∈ fieldBased ++ specieBased) (h : path c s sh = path c' s' sh') :
    c = c' ∧ sh = sh' ∧ (c ∈ specieBased → s = s') := by
  unfold path at h
  rw [pathTail_eq, pathTail_eq] at h
  have hh : ∀ c s, ∃ x, pathHead c s = x ++ ['/'] := by
    intro c s
    unfold pathHead
    split
    · exact ⟨c ++ ['/'] ++ s, by simp⟩
    · exact ⟨c, by simp⟩
  rw [← List.append_assoc, ← List.append_assoc] at h
  obtain ⟨h1, h2⟩ := cut_last (numbers_clean sh).1 (numbers_clean sh').1 h
  obtain ⟨x, hx⟩ := hh c s
  obtain ⟨y, hy⟩ := hh c' s'
  have h1' := h1
  rw [hx, hy, List.append_assoc, List.append_assoc, List.singleton_append, List.singleton_append] at h1'
  obtain ⟨h3, h4⟩ := cut_last (name_clean sh) (name_clean sh') h1'
  have h5 : pathHead c s = pathHead c' s' := by rw [hx, hy, h3]
  obtain ⟨e, f⟩ := head_inj hc hc' h5
  exact ⟨e, numbers_inj h4 h2, f⟩

/-- What a user passes to the reader as component: `component` or `component/specie`. -/
def readerComponent (component specie : List Char) : List Char :=
  if component ∈ specieBased then component ++ ['/'] ++ specie else component

/-- **C46 (partial), reader.**  For rectangles and dots the reader opens exactly the path the writer uses (under the root
`/`).  Missing: columns and rows, see `C46_reader_fails`. -/
theorem C46_reader_partial (c s : List Char) (p : Rect) (r z : Nat) :
    readerRec (readerComponent c s) p = '/' :: path c s (.rect p) ∧
    readerDot (readerComponent c s) r z = '/' :: path c s (.dot r z) := by
  unfold readerRec readerDot readerPath path pathHead readerComponent pathTail
  constructor
  · by_cases h : c ∈ specieBased <;> simp [h]
  · have h1 : ¬ (['d', 'o', 't'] = ['r', 'e', 'c']) := by decide
    have h2 : ¬ (['d', 'o', 't'] = ['c', 'o', 'l']) := by decide
    have h3 : ¬ (['d', 'o', 't'] = ['r', 'o', 'w']) := by decide
    simp only [h1, h2, h3, if_false]
    by_cases h : c ∈ specieBased <;> simp [h]

/-- Where C46 fails: for columns and rows the reader always opens number 0, whatever column or row was asked for; for
any other it is not the path the writer uses. -/
theorem C46_reader_fails (c s : List Char) (n : Nat) (hn : n ≠ 0) :
    readerCol (readerComponent c s) n = '/' :: path c s (.col 0) ∧
    readerCol (readerComponent c s) n ≠ '/' :: path c s (.col n) ∧
    readerRow (readerComponent c s) n = '/' :: path c s (.row 0) ∧
    readerRow (readerComponent c s) n ≠ '/' :: path c s (.row n) := by
  have e1 : readerCol (readerComponent c s) n = '/' :: path c s (.col 0) := by
    unfold readerCol readerPath path pathHead readerComponent pathTail
    have h1 : ¬ (['c', 'o', 'l'] = ['r', 'e', 'c']) := by decide
    simp only [h1, if_false, if_true]
    by_cases h : c ∈ specieBased <;> simp [h]
  have e2 : readerRow (readerComponent c s) n = '/' :: path c s (.row 0) := by
    unfold readerRow readerPath path pathHead readerComponent pathTail
    have h1 : ¬ (['r', 'o', 'w'] = ['r', 'e', 'c']) := by decide
    have h2 : ¬ (['r', 'o', 'w'] = ['c', 'o', 'l']) := by decide
    simp only [h1, h2, if_false, if_true]
    by_cases h : c ∈ specieBased <;> simp [h]
  refine ⟨e1, ?_, e2, ?_⟩
  · rw [e1]
    intro h
    have := List.append_cancel_left (List.cons.inj h).2
    simp only [pathTail] at this
    exact hn (dec_inj (List.append_cancel_left this)).symm
  · rw [e2]
    intro h
    have := List.append_cancel_left (List.cons.inj h).2
    simp only [pathTail] at this
    exact hn (dec_inj (List.append_cancel_left this)).symm

theorem group_path (c s : List Char) (sh : Shape) : groupOf (path c s sh) = pathHead c s ++ shapeName sh := by
  unfold groupOf path
  rw [pathTail_eq, List.reverse_append, List.reverse_append, List.reverse_cons, List.append_assoc, List.append_assoc]
  have hd : ∀ (x y : List Char), (∀ a ∈ x, a ≠ '/' ∧ a ≠ '\\') →
      (x ++ ('/' :: y)).dropWhile (fun c => c ≠ '/' && c ≠ '\\') = '/' :: y := by
    intro x y hx
    induction x with
    | nil => simp
    | cons a x ih =>
      have := hx a (List.mem_cons_self ..)
      rw [List.cons_append, List.dropWhile_cons_of_pos (by simp [this.1, this.2])]
      exact ih (fun b hb => hx b (List.mem_cons_of_mem _ hb))
  rw [List.singleton_append, hd]
  · simp
  · intro a ha
    have ha := List.mem_reverse.mp ha
    exact ⟨fun e => (numbers_clean sh).1 (e ▸ ha), fun e => (numbers_clean sh).2 (e ▸ ha)⟩

/-- Where C46 fails: two probes of the same component (and species) and the same kind of shape cannot be used together,
whatever their numbers are: creating the second dataset aborts the program, because the group of the first one exists. -/
theorem C46_same_group_fails (c s : List Char) (p q : Rect) (before between after : List (List Char))
    (h : ∃ g, createAll (before ++ path c s (.rect p) :: between) = .ok g) :
    createAll (before ++ path c s (.rect p) :: between ++ path c s (.rect q) :: after) = .fatal := by
  obtain ⟨g, hg⟩ := h
  unfold createAll at *
  rw [loop_append, hg, Res.ok_bind, loop_cons]
  have keep : ∀ (l : List (List Char)) (x g g' : _), x ∈ g → loop (fun p g => createDataset g p) l g = .ok g' → x ∈ g' := by
    intro l
    induction l with
    | nil => intro x g g' hx h; cases h; exact hx
    | cons a l ih =>
      intro x g g' hx h
      rw [loop_cons] at h
      unfold createDataset at h
      split at h
      · cases h
      · rw [Res.ok_bind] at h
        exact ih x _ g' (List.mem_cons_of_mem _ hx) h
  have hmem : groupOf (path c s (.rect q)) ∈ g := by
    rw [loop_append] at hg
    cases h1 : loop (fun p g => createDataset g p) before [] with
    | ok g1 =>
      rw [h1, Res.ok_bind, loop_cons] at hg
      unfold createDataset at hg
      split at hg
      · cases hg
      · rw [Res.ok_bind] at hg
        refine keep _ _ _ _ ?_ hg
        rw [group_path, group_path]
        exact List.mem_cons_self ..
    | fatal => rw [h1] at hg; cases hg
    | ub => rw [h1] at hg; cases hg
  unfold createDataset
  rw [if_pos hmem]
  rfl

example : createAll [path "E/r".toList [] (.rect ⟨0, 0, 8, 8⟩), path "E/r".toList [] (.rect ⟨0, 0, 4, 4⟩)] = .fatal :=
  C46_same_group_fails "E/r".toList [] ⟨0, 0, 8, 8⟩ ⟨0, 0, 4, 4⟩ [] [] [] ⟨_, rfl⟩

/-- Probes with pairwise different components are all created (field components). -/
theorem C46_create_partial (l : List (List Char × Shape)) (hk : ∀ x ∈ l, x.1 ∈ fieldBased) (hd : (l.map (·.1)).Nodup) :
    ∃ g, createAll (l.map fun x => path x.1 [] x.2) = .ok g := by
  have key : ∀ (l : List (List Char × Shape)) (g : List (List Char)), (∀ x ∈ l, x.1 ∈ fieldBased) → (l.map (·.1)).Nodup →
      (∀ x ∈ l, ∀ sh, pathHead x.1 [] ++ shapeName sh ∉ g) →
      ∃ g', loop (fun p g => createDataset g p) (l.map fun x => path x.1 [] x.2) g = .ok g' := by
    intro l
    induction l with
    | nil => intro g _ _ _; exact ⟨g, rfl⟩
    | cons x l ih =>
      intro g hk hd hg
      rw [List.map_cons, loop_cons]
      unfold createDataset
      rw [if_neg (by rw [group_path]; exact hg x (List.mem_cons_self ..) x.2), Res.ok_bind]
      simp only [List.map_cons, List.nodup_cons] at hd
      refine ih _ (fun y hy => hk y (List.mem_cons_of_mem _ hy)) hd.2 ?_
      intro y hy sh hm
      rcases List.mem_cons.mp hm with e | e
      · rw [group_path] at e
        have hx := hk x (List.mem_cons_self ..)
        have hy' := hk y (List.mem_cons_of_mem _ hy)
        have hne : y.1 ≠ x.1 := fun e => hd.1 (e ▸ List.mem_map_of_mem hy)
        obtain ⟨k1, k2⟩ := known_apart y.1 (List.mem_append_left _ hy') x.1 (List.mem_append_left _ hx) hne
        unfold pathHead at e
        rw [List.append_assoc, List.append_assoc (x.1 ++ ['/'])] at e
        rcases prefix_total e with h' | h'
        · exact k1 h'
        · exact k2 h'
      · exact hg y (List.mem_cons_of_mem _ hy) sh e
  exact key l [] hk hd (fun _ _ _ h => by cases h)

/-- Where C46 fails: a probe of an unknown component is only reported and then used with an uninitialised pointer; every
known component has its grid, and a missing species skips the probe. -/
theorem C46_component_fails (c : List Char) (e : Bool) :
    (source c e = .ub ↔ c ∉ fieldBased ++ specieBased) ∧ (c ∈ specieBased → source c false = .ok none) := by
  constructor
  · unfold source
    by_cases h1 : c ∈ fieldBased
    · simp [h1]
    · by_cases h2 : c ∈ specieBased <;> simp [h1, h2]
  · intro h
    have h1 : c ∉ fieldBased := by
      have : ∀ x ∈ specieBased, x ∉ fieldBased := by decide
      exact this c h
    unfold source
    simp [h1, h]

/-- Different known components never share a grid. -/
theorem C73_source_distinct (c c' : List Char) (k : Nat) (h : source c true = .ok (some k))
    (h' : source c' true = .ok (some k)) : c = c' := by
  have key : ∀ c k, source c true = .ok (some k) → (fieldBased ++ specieBased)[k]? = some c := by
    intro c k h
    unfold source at h
    by_cases h1 : c ∈ fieldBased
    · rw [if_pos h1] at h
      simp only [Res.ok.injEq, Option.some.injEq] at h
      subst h
      rw [List.getElem?_append_left (List.idxOf_lt_length_of_mem h1), List.getElem?_eq_getElem (List.idxOf_lt_length_of_mem h1),
        List.getElem_idxOf]
    · rw [if_neg h1] at h
      by_cases h2 : c ∈ specieBased
      · rw [if_pos h2] at h
        simp only [Res.ok.injEq, Option.some.injEq, if_true] at h
        subst h
        rw [List.getElem?_append_right (by omega), Nat.add_sub_cancel_left,
          List.getElem?_eq_getElem (List.idxOf_lt_length_of_mem h2), List.getElem_idxOf]
      · rw [if_neg h2] at h
        cases h
  have h1 := key c k h
  rw [key c' k h'] at h1
  exact (Option.some.inj h1).symm

example : source "E/r".toList false = .ok (some 0) ∧ source "density".toList true = .ok (some 14) ∧
    source "speed".toList true = .ub := by decide

end Probe
end Pico
