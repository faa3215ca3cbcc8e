import Verif.Spec.Current
import Verif.Lemmas.Base
import Verif.Lemmas.Weighter
import Verif.Lemmas.Yee
import Mathlib.Tactic.Linarith
import Mathlib.Tactic.FieldSimp
import Mathlib.Tactic.Ring
import Mathlib.Tactic.Positivity
import Mathlib.Tactic.LinearCombination

set_option linter.unusedSimpArgs false
set_option linter.unusedVariables false
set_option linter.unusedSectionVars false

namespace Pico
namespace VB

open Yee

variable {K : Type _} [Field K] [LinearOrder K] [IsStrictOrderedRing K] [FloorRing K]

/-! ### Lists of increments -/

/-- The operation is an increment inside the grid. -/
def Op.Inc (g : Geom K) : Op K → Prop
  | .inc _ i k _ => insideG g i k
  | .set _ _ _ _ => False

/-- Contribution of an increment. -/
def Op.val : Op K → Comp → Int → Int → K
  | .inc c i k v, c', i', k' => if c' = c ∧ i' = i ∧ k' = k then v else 0
  | .set _ _ _ _, _, _, _ => 0

/-- Sum of the contributions of a list of increments. -/
def tot (ops : List (Op K)) (c : Comp) (i k : Int) : K := (ops.map (fun o => o.val c i k)).sum

theorem tot_nil (c : Comp) (i k : Int) : tot ([] : List (Op K)) c i k = 0 := rfl

theorem tot_cons (o : Op K) (l : List (Op K)) (c : Comp) (i k : Int) :
    tot (o :: l) c i k = o.val c i k + tot l c i k := by
  unfold tot; simp

theorem tot_append (l l' : List (Op K)) (c : Comp) (i k : Int) :
    tot (l ++ l') c i k = tot l c i k + tot l' c i k := by
  unfold tot; simp

theorem runOps_inc (g : Geom K) (ops : List (Op K)) (h : ∀ o ∈ ops, o.Inc g) (m : Mem K) :
    ∃ m', runOps g ops m = .ok m' ∧ ∀ c i k, m' c i k = m c i k + tot ops c i k := by
  induction ops generalizing m with
  | nil => exact ⟨m, rfl, fun c i k => by rw [tot_nil, add_zero]⟩
  | cons o l ih =>
    have ho := h o (by simp)
    cases o with
    | set => exact ho.elim
    | inc c i k v =>
      obtain ⟨m', e, f⟩ := ih (fun o ho => h o (by simp [ho])) (put m c i k (m c i k + v))
      refine ⟨m', ?_, ?_⟩
      · unfold runOps at e ⊢
        rw [loop_cons]
        show (if insideG g i k then Res.ok (put m c i k (m c i k + v)) else .ub) >>= _ = _
        have ho' : insideG g i k := ho
        rw [if_pos ho', Res.ok_bind]
        exact e
      · intro c' i' k'
        rw [f, tot_cons]
        unfold put Op.val
        dsimp only
        by_cases hh : c' = c ∧ i' = i ∧ k' = k
        · rw [if_pos hh, if_pos hh, hh.1, hh.2.1, hh.2.2]
          ring
        · rw [if_neg hh, if_neg hh]
          ring

/-! ### Shares inside a cell -/

theorem ringShare_cell {dr r : K} (hdr : 0 < dr) {i : Int} (hi : 0 ≤ i) (h1 : (i : K) * dr ≤ r)
    (h2 : r ≤ ((i : K) + 1) * dr) (a : Int) (ha : 0 ≤ a) :
    ringShare dr r (a : K) = if a = i then (((i : K) + 1/2) * dr) ^ 2 - (r - dr / 2) ^ 2
      else if a = i + 1 then (r + dr / 2) ^ 2 - (((i : K) + 1/2) * dr) ^ 2 else 0 := by
  have hi0 : (0 : K) ≤ (i : K) := by exact_mod_cast hi
  have ha0 : (0 : K) ≤ (a : K) := by exact_mod_cast ha
  have hidr : 0 ≤ (i : K) * dr := by positivity
  unfold ringShare
  split
  · rename_i h; subst h
    rw [min_eq_right (by linarith), max_eq_left (a := r - dr / 2) (by linarith), max_eq_right]
    nlinarith [mul_nonneg (by linarith : 0 ≤ r) (by linarith : 0 ≤ ((a : K) + 1) * dr - r)]
  · split
    · rename_i h; subst h
      push_cast
      rw [min_eq_left (by linarith), max_eq_right (a := r - dr / 2) (by linarith), max_eq_right]
      · ring
      · nlinarith
    · rename_i n1 n2
      apply max_eq_left
      rcases lt_or_gt_of_ne n1 with h | h
      · -- a < i
        have h3 : (a : K) + 1 ≤ (i : K) := by exact_mod_cast h
        have h4 : ((a : K) + 1/2) * dr ≤ r - dr / 2 := by nlinarith
        have h5 : 0 ≤ ((a : K) + 1/2) * dr := by positivity
        have h6 : 0 ≤ r - dr/2 := by linarith
        rw [min_eq_right (by linarith), max_eq_left (by nlinarith)]
        nlinarith
      · have h3 : (i : K) + 2 ≤ (a : K) := by exact_mod_cast (by omega : i + 2 ≤ a)
        have h4 : r + dr / 2 ≤ ((a : K) - 1/2) * dr := by nlinarith
        have h5 : 0 ≤ r + dr / 2 := by linarith
        rw [min_eq_left (by nlinarith), max_eq_right (by nlinarith)]
        nlinarith

theorem lineShare_cell {dz z : K} (hdz : 0 < dz) {k : Int} (h1 : (k : K) * dz ≤ z)
    (h2 : z ≤ ((k : K) + 1) * dz) (b : Int) :
    lineShare dz z (b : K) = if b = k then ((k : K) + 1) * dz - z
      else if b = k + 1 then z - (k : K) * dz else 0 := by
  unfold lineShare
  split
  · rename_i h; subst h
    rw [min_eq_right (by linarith), max_eq_left (a := z - dz / 2) (by linarith), max_eq_right]
    · ring
    · linarith
  · split
    · rename_i h; subst h
      push_cast
      rw [min_eq_left (by linarith), max_eq_right (a := z - dz / 2) (by linarith), max_eq_right]
      · ring
      · linarith
    · rename_i n1 n2
      apply max_eq_left
      rcases lt_or_gt_of_ne n1 with h | h
      · have h3 : (b : K) + 1 ≤ (k : K) := by exact_mod_cast h
        have h4 : ((b : K) + 1/2) * dz ≤ z - dz / 2 := by nlinarith
        have := min_le_right (z + dz / 2) (((b : K) + 1/2) * dz)
        have := le_max_left (z - dz / 2) (((b : K) - 1/2) * dz)
        linarith
      · have h3 : (k : K) + 2 ≤ (b : K) := by exact_mod_cast (by omega : k + 2 ≤ b)
        have h4 : z + dz / 2 ≤ ((b : K) - 1/2) * dz := by nlinarith
        have := min_le_left (z + dz / 2) (((b : K) + 1/2) * dz)
        have := le_max_right (z - dz / 2) (((b : K) - 1/2) * dz)
        linarith

/-! ### Telescoping -/

theorem outflow_add (pi : K) (g : Geom K) (J J' : Comp → Int → Int → K) (a b : Int) :
    outflow pi g (fun c i k => J c i k + J' c i k) a b = outflow pi g J a b + outflow pi g J' a b := by
  unfold outflow; ring

theorem Continuity.append {pi dt : K} {g : Geom K} {q r2 z2 r1 z1 r0 z0 : K} {l l' : List (Op K)}
    (h : Continuity pi dt g q r1 z1 r0 z0 (tot l)) (h' : Continuity pi dt g q r2 z2 r1 z1 (tot l')) :
    Continuity pi dt g q r2 z2 r0 z0 (tot (l ++ l')) := by
  intro a b ha
  have e : tot (l ++ l') = fun c i k => tot l c i k + tot l' c i k := by
    funext c i k; exact tot_append l l' c i k
  rw [e, outflow_add]
  have := h a b ha
  have := h' a b ha
  linarith

/-! ### Motion inside one cell -/

theorem faceR_eq (pi : K) (g : Geom K) (hg : g.Good) {a : Int} (ha : 0 ≤ a) :
    faceR pi g a = 2 * pi * (((a : K) + 1/2) * g.dr) * g.dz := by
  have : (0 : K) ≤ (a : K) := by exact_mod_cast ha
  have := hg.dr
  unfold faceR
  rw [max_eq_right (by positivity)]

theorem faceR_neg (pi : K) (g : Geom K) (hg : g.Good) {a : Int} (ha : a < 0) : faceR pi g a = 0 := by
  have h : (a : K) + 1 ≤ 0 := by exact_mod_cast ha
  have := hg.dr
  unfold faceR
  rw [max_eq_left (by nlinarith)]
  ring

theorem faceZ_pos (pi : K) (g : Geom K) (hg : g.Good) {a : Int} (ha : 1 ≤ a) :
    faceZ pi g a = 2 * pi * (a : K) * g.dr * g.dr := by
  have h : (1 : K) ≤ (a : K) := by exact_mod_cast ha
  have := hg.dr
  unfold faceZ
  rw [max_eq_right (by nlinarith)]
  ring

theorem faceZ_zero (pi : K) (g : Geom K) (hg : g.Good) : faceZ pi g 0 = pi * g.dr * g.dr / 4 := by
  have := hg.dr
  unfold faceZ
  push_cast
  rw [max_eq_left (by linarith)]
  ring

section piece
variable (x : Ctx K) (hx : x.Good) {r z r' z' q : K} {i k : Int} (hi : 0 ≤ i)
  (hr : 0 < r) (hr' : 0 < r') (nr : r' - r ≠ 0) (nz : z' - z ≠ 0)

include hx hi hr hr' nr nz

theorem piece_z1 : faceZ x.pi x.g i * (simpleZ x r' z' r z i q).1 =
    q / (2 * x.g.dr * x.g.dz * x.dt) * (x.g.dr * (z' - z) - (r' - r) * (z' - z) / 2 - (z' - z) * r
      + x.g.dr ^ 2 * ((i : K) ^ 2 + i) * ((z' - z) / (r' - r)) * x.lg (r' / r)) := by
  have dr := hx.geo.dr
  have dz := hx.geo.dz
  have dt := hx.dt
  have pi := hx.pi
  have e : ((r' - r) / (z' - z) * (z' - z) + r) / r = r' / r := by
    rw [div_mul_cancel₀ _ nz]; ring
  unfold simpleZ
  dsimp only
  split
  · rename_i h
    rw [faceZ_pos _ _ hx.geo h, e]
    have : (0 : K) < (i : K) := by exact_mod_cast (by omega : 0 < i)
    unfold densR
    generalize x.lg (r' / r) = L
    field_simp
    ring
  · rename_i h
    obtain rfl : i = 0 := by omega
    rw [faceZ_zero _ _ hx.geo]
    push_cast
    generalize x.lg (r' / r) = L
    field_simp
    ring

theorem piece_z2 : faceZ x.pi x.g (i + 1) * (simpleZ x r' z' r z i q).2 =
    q / (2 * x.g.dr * x.g.dz * x.dt) * (x.g.dr * (z' - z) + (r' - r) * (z' - z) / 2 + (z' - z) * r
      - x.g.dr ^ 2 * ((i : K) ^ 2 + i) * ((z' - z) / (r' - r)) * x.lg (r' / r)) := by
  have dr := hx.geo.dr
  have dz := hx.geo.dz
  have dt := hx.dt
  have pi := hx.pi
  have e : ((r' - r) / (z' - z) * (z' - z) + r) / r = r' / r := by
    rw [div_mul_cancel₀ _ nz]; ring
  rw [faceZ_pos _ _ hx.geo (by omega)]
  unfold simpleZ
  dsimp only
  split
  · rename_i h
    rw [e]
    have : (0 : K) < (i : K) := by exact_mod_cast (by omega : 0 < i)
    unfold densR
    push_cast
    generalize x.lg (r' / r) = L
    field_simp
    ring
  · rename_i h
    obtain rfl : i = 0 := by omega
    push_cast
    unfold densR
    generalize x.lg (r' / r) = L
    field_simp
    ring

theorem piece_r1 : faceR x.pi x.g i * (simpleR x r' z' r z i k q).1 =
    -(q / (2 * x.g.dr * x.g.dz * x.dt) * (x.g.dr * (z' - z) - (r' - r) * (z' - z) / 2 - (z' - z) * r
      + x.g.dr ^ 2 * ((i : K) ^ 2 + i) * ((z' - z) / (r' - r)) * x.lg (r' / r)))
    - q / x.dt * (((((i : K) + 1/2) * x.g.dr) ^ 2 - (r' - x.g.dr / 2) ^ 2) / (2 * r' * x.g.dr) *
        ((((k : K) + 1) * x.g.dz - z') / x.g.dz)
      - ((((i : K) + 1/2) * x.g.dr) ^ 2 - (r - x.g.dr / 2) ^ 2) / (2 * r * x.g.dr) *
        ((((k : K) + 1) * x.g.dz - z) / x.g.dz)) := by
  have dr := hx.geo.dr
  have dz := hx.geo.dz
  have dt := hx.dt
  have pi := hx.pi
  have e : r + (r' - r) = r' := by ring
  have : (0 : K) ≤ (i : K) := by exact_mod_cast hi
  have hp : (0 : K) < (i : K) + 1/2 := by positivity
  rw [faceR_eq _ _ hx.geo hi]
  unfold simpleR densZ
  dsimp only
  have hn : (i : K) ^ 2 + i = ((i : K) + 1/2) ^ 2 - 1/4 := by ring
  rw [e, hn]
  generalize x.lg (r' / r) = L
  generalize (i : K) + 1/2 = n at hp ⊢
  field_simp
  ring

theorem piece_r2 : faceR x.pi x.g i * (simpleR x r' z' r z i k q).2 =
    q / (2 * x.g.dr * x.g.dz * x.dt) * (x.g.dr * (z' - z) - (r' - r) * (z' - z) / 2 - (z' - z) * r
      + x.g.dr ^ 2 * ((i : K) ^ 2 + i) * ((z' - z) / (r' - r)) * x.lg (r' / r))
    - q / x.dt * (((((i : K) + 1/2) * x.g.dr) ^ 2 - (r' - x.g.dr / 2) ^ 2) / (2 * r' * x.g.dr) *
        ((z' - (k : K) * x.g.dz) / x.g.dz)
      - ((((i : K) + 1/2) * x.g.dr) ^ 2 - (r - x.g.dr / 2) ^ 2) / (2 * r * x.g.dr) *
        ((z - (k : K) * x.g.dz) / x.g.dz)) := by
  have dr := hx.geo.dr
  have dz := hx.geo.dz
  have dt := hx.dt
  have pi := hx.pi
  have e : r + (r' - r) = r' := by ring
  have : (0 : K) ≤ (i : K) := by exact_mod_cast hi
  have hp : (0 : K) < (i : K) + 1/2 := by positivity
  rw [faceR_eq _ _ hx.geo hi]
  unfold simpleR densZ
  dsimp only
  have hn : (i : K) ^ 2 + i = ((i : K) + 1/2) ^ 2 - 1/4 := by ring
  rw [e, hn]
  generalize x.lg (r' / r) = L
  generalize (i : K) + 1/2 = n at hp ⊢
  field_simp
  ring

end piece

/-- The shares of the lower and upper ring add up. -/
theorem upper_share {dr r : K} (hdr : 0 < dr) (hr : 0 < r) (n : K) :
    ((r + dr / 2) ^ 2 - (n * dr) ^ 2) / (2 * r * dr) = 1 - ((n * dr) ^ 2 - (r - dr / 2) ^ 2) / (2 * r * dr) := by
  field_simp
  ring

/-- Not shorter than `MNZL` in any direction. -/
def Long (x : Ctx K) (dR dZ : K) : Prop := x.mnzl ≤ |dR| ∧ x.mnzl ≤ |dZ|

/-- In the closed cell `(i, k)`, off the axis. -/
structure InCell (g : Geom K) (r z : K) (i k : Int) : Prop where
  pos : 0 < r
  rlo : (i : K) * g.dr ≤ r
  rhi : r ≤ ((i : K) + 1) * g.dr
  zlo : (k : K) * g.dz ≤ z
  zhi : z ≤ ((k : K) + 1) * g.dz

theorem nodeCharge_cell {g : Geom K} (hg : g.Good) {r z : K} {i k : Int} (hi : 0 ≤ i) (h : InCell g r z i k)
    (q : K) (a b : Int) (ha : 0 ≤ a) :
    nodeCharge g q r z a b =
      q * (if a = i then ((((i : K) + 1/2) * g.dr) ^ 2 - (r - g.dr / 2) ^ 2) / (2 * r * g.dr)
        else if a = i + 1 then 1 - ((((i : K) + 1/2) * g.dr) ^ 2 - (r - g.dr / 2) ^ 2) / (2 * r * g.dr) else 0) *
      (if b = k then (((k : K) + 1) * g.dz - z) / g.dz
        else if b = k + 1 then (z - (k : K) * g.dz) / g.dz else 0) := by
  unfold nodeCharge
  rw [ringShare_cell hg.dr hi h.rlo h.rhi a ha, lineShare_cell hg.dz h.zlo h.zhi b]
  congr 1
  · congr 1
    split
    · rfl
    · split
      · exact upper_share hg.dr h.pos _
      · rw [zero_div]
  · split
    · rfl
    · split
      · rfl
      · rw [zero_div]

/-- Share of the lower ring. -/
def lowShare (g : Geom K) (i : Int) (r : K) : K := ((((i : K) + 1/2) * g.dr) ^ 2 - (r - g.dr / 2) ^ 2) / (2 * r * g.dr)

/-- Deposits in one cell satisfying the continuity equation at its four nodes. -/
theorem cell_cont (x : Ctx K) (hx : x.Good) {r z r' z' : K} (q : K) {i k : Int} (hi : 0 ≤ i)
    (h : InCell x.g r z i k) (h' : InCell x.g r' z' i k) {r1 r2 z1 z2 : K} {ops : List (Op K)}
    (Jr : ∀ u v, tot ops .jr u v = if u = i - x.g.r0 then
      (if v = k - x.g.z0 then r1 else if v = k - x.g.z0 + 1 then r2 else 0) else 0)
    (Jz : ∀ u v, tot ops .jz u v = if v = k - x.g.z0 then
      (if u = i - x.g.r0 then z1 else if u = i - x.g.r0 + 1 then z2 else 0) else 0)
    (R1 : faceR x.pi x.g i * r1 = -(faceZ x.pi x.g i * z1) - q / x.dt *
      (lowShare x.g i r' * ((((k : K) + 1) * x.g.dz - z') / x.g.dz)
        - lowShare x.g i r * ((((k : K) + 1) * x.g.dz - z) / x.g.dz)))
    (R2 : faceR x.pi x.g i * r2 = faceZ x.pi x.g i * z1 - q / x.dt *
      (lowShare x.g i r' * ((z' - (k : K) * x.g.dz) / x.g.dz) - lowShare x.g i r * ((z - (k : K) * x.g.dz) / x.g.dz)))
    (ZZ : faceZ x.pi x.g i * z1 + faceZ x.pi x.g (i + 1) * z2 = q * (z' - z) / (x.g.dz * x.dt)) :
    Continuity x.pi x.dt x.g q r' z' r z (tot ops) := by
  have dt := hx.dt.ne'
  have dz := hx.geo.dz.ne'
  intro a b ha
  rw [nodeCharge_cell hx.geo hi h q _ _ ha, nodeCharge_cell hx.geo hi h' q _ _ ha]
  unfold outflow
  rw [Jr, Jr, Jz, Jz]
  unfold lowShare at R1 R2
  generalize hf : ((((i : K) + 1/2) * x.g.dr) ^ 2 - (r - x.g.dr / 2) ^ 2) / (2 * r * x.g.dr) = f at R1 R2 ⊢
  generalize hf' : ((((i : K) + 1/2) * x.g.dr) ^ 2 - (r' - x.g.dr / 2) ^ 2) / (2 * r' * x.g.dr) = f' at R1 R2 ⊢
  by_cases a1 : a + x.g.r0 = i
  · have e1 : a = i - x.g.r0 := by omega
    have e2 : a - 1 ≠ i - x.g.r0 := by omega
    rw [if_pos a1, if_pos a1, if_pos e1, if_neg e2, a1]
    simp only [if_pos e1]
    by_cases b1 : b + x.g.z0 = k
    · have c1 : b = k - x.g.z0 := by omega
      have c2 : b - 1 ≠ k - x.g.z0 := by omega
      rw [if_pos b1, if_pos b1, if_pos c1, if_pos c1, if_neg c2, R1]
      field_simp
      ring
    · have c1 : b ≠ k - x.g.z0 := by omega
      rw [if_neg b1, if_neg b1, if_neg c1, if_neg c1]
      by_cases b2 : b + x.g.z0 = k + 1
      · have c2 : b = k - x.g.z0 + 1 := by omega
        have c3 : b - 1 = k - x.g.z0 := by omega
        rw [if_pos b2, if_pos b2, if_pos c2, if_pos c3, R2]
        field_simp
        ring
      · have c2 : b ≠ k - x.g.z0 + 1 := by omega
        have c3 : b - 1 ≠ k - x.g.z0 := by omega
        rw [if_neg b2, if_neg b2, if_neg c2, if_neg c3]
        ring
  · have e1 : a ≠ i - x.g.r0 := by omega
    rw [if_neg a1, if_neg a1, if_neg e1]
    simp only [if_neg e1]
    by_cases a2 : a + x.g.r0 = i + 1
    · have e2 : a - 1 = i - x.g.r0 := by omega
      have e3 : a = i - x.g.r0 + 1 := by omega
      have e4 : a + x.g.r0 - 1 = i := by omega
      rw [if_pos a2, if_pos a2, if_pos e2, e4, a2]
      simp only [if_pos e3]
      by_cases b1 : b + x.g.z0 = k
      · have c1 : b = k - x.g.z0 := by omega
        have c2 : b - 1 ≠ k - x.g.z0 := by omega
        rw [if_pos b1, if_pos b1, if_pos c1, if_pos c1, if_neg c2, R1]
        have : faceZ x.pi x.g (i + 1) * z2 = q * (z' - z) / (x.g.dz * x.dt) - faceZ x.pi x.g i * z1 := by
          rw [← ZZ]; ring
        rw [this]
        field_simp
        ring
      · have c1 : b ≠ k - x.g.z0 := by omega
        rw [if_neg b1, if_neg b1, if_neg c1, if_neg c1]
        by_cases b2 : b + x.g.z0 = k + 1
        · have c2 : b = k - x.g.z0 + 1 := by omega
          have c3 : b - 1 = k - x.g.z0 := by omega
          rw [if_pos b2, if_pos b2, if_pos c2, if_pos c3, R2]
          have : faceZ x.pi x.g (i + 1) * z2 = q * (z' - z) / (x.g.dz * x.dt) - faceZ x.pi x.g i * z1 := by
            rw [← ZZ]; ring
          rw [this]
          field_simp
          ring
        · have c2 : b ≠ k - x.g.z0 + 1 := by omega
          have c3 : b - 1 ≠ k - x.g.z0 := by omega
          rw [if_neg b2, if_neg b2, if_neg c2, if_neg c3]
          ring
    · have e2 : a - 1 ≠ i - x.g.r0 := by omega
      have e3 : a ≠ i - x.g.r0 + 1 := by omega
      rw [if_neg a2, if_neg a2, if_neg e2]
      simp only [if_neg e3]
      simp

/-- A piece of the path inside one cell satisfies the continuity equation. -/
theorem simple_cont (x : Ctx K) (hx : x.Good) {r z r' z' : K} (q : K) {i k : Int} (hi : 0 ≤ i)
    (h : InCell x.g r z i k) (h' : InCell x.g r' z' i k) (hl : Long x (r' - r) (z' - z)) :
    Continuity x.pi x.dt x.g q r' z' r z (tot (simple x r' z' r z i k q)) ∧
    ∃ z1 z2, (∀ u v, tot (simple x r' z' r z i k q) .jz u v = if v = k - x.g.z0 then
      (if u = i - x.g.r0 then z1 else if u = i - x.g.r0 + 1 then z2 else 0) else 0) ∧
      faceZ x.pi x.g i * z1 + faceZ x.pi x.g (i + 1) * z2 = q * (z' - z) / (x.g.dz * x.dt) := by
  have mn := hx.mnzl
  have nr : r' - r ≠ 0 := by
    intro e; have := hl.1; rw [e, abs_zero] at this; linarith
  have nz : z' - z ≠ 0 := by
    intro e; have := hl.2; rw [e, abs_zero] at this; linarith
  have dt := hx.dt.ne'
  have dz := hx.geo.dz.ne'
  have Z1 := piece_z1 x hx (q := q) hi h.pos h'.pos nr nz
  have Z2 := piece_z2 x hx (q := q) hi h.pos h'.pos nr nz
  have R1 := piece_r1 x hx (q := q) (k := k) hi h.pos h'.pos nr nz
  have R2 := piece_r2 x hx (q := q) (k := k) hi h.pos h'.pos nr nz
  have S : simple x r' z' r z i k q = [.inc .jz (i - x.g.r0) (k - x.g.z0) (simpleZ x r' z' r z i q).1,
      .inc .jz (i - x.g.r0 + 1) (k - x.g.z0) (simpleZ x r' z' r z i q).2,
      .inc .jr (i - x.g.r0) (k - x.g.z0) (simpleR x r' z' r z i k q).1,
      .inc .jr (i - x.g.r0) (k - x.g.z0 + 1) (simpleR x r' z' r z i k q).2] := by
    unfold simple
    rw [if_neg]
    rintro (hh | hh)
    · exact absurd hl.1 (not_le.mpr hh)
    · exact absurd hl.2 (not_le.mpr hh)
  have Jr : ∀ u v, tot (simple x r' z' r z i k q) .jr u v = if u = i - x.g.r0 then
      (if v = k - x.g.z0 then (simpleR x r' z' r z i k q).1 else
        if v = k - x.g.z0 + 1 then (simpleR x r' z' r z i k q).2 else 0) else 0 := by
    intro u v
    rw [S]
    simp only [tot_cons, tot_nil, Op.val, reduceCtorEq, false_and, true_and, if_false, zero_add, add_zero]
    by_cases hu : u = i - x.g.r0
    · by_cases hv : v = k - x.g.z0
      · simp [hu, hv]
      · simp [hu, hv]
    · simp [hu]
  have Jz : ∀ u v, tot (simple x r' z' r z i k q) .jz u v = if v = k - x.g.z0 then
      (if u = i - x.g.r0 then (simpleZ x r' z' r z i q).1 else
        if u = i - x.g.r0 + 1 then (simpleZ x r' z' r z i q).2 else 0) else 0 := by
    intro u v
    rw [S]
    simp only [tot_cons, tot_nil, Op.val, reduceCtorEq, false_and, true_and, if_false, zero_add, add_zero]
    by_cases hu : u = i - x.g.r0
    · by_cases hv : v = k - x.g.z0
      · simp [hu, hv]
      · simp [hu, hv]
    · by_cases hv : v = k - x.g.z0
      · simp [hu, hv]
      · simp [hu, hv]
  rw [← Z1] at R1 R2
  have ZZ : faceZ x.pi x.g i * (simpleZ x r' z' r z i q).1 + faceZ x.pi x.g (i + 1) * (simpleZ x r' z' r z i q).2 =
      q * (z' - z) / (x.g.dz * x.dt) := by
    rw [Z1, Z2]
    have := hx.geo.dr.ne'
    field_simp
    ring
  exact ⟨cell_cont x hx q hi h h' Jr Jz R1 R2 ZZ, _, _, Jz, ZZ⟩

theorem simple_inc (x : Ctx K) {r z r' z' : K} (q : K) {i k : Int}
    (hi : -2 ≤ i - (x.g.r0 : Int)) (hi' : i - (x.g.r0 : Int) ≤ x.g.nr) (hk : -2 ≤ k - (x.g.z0 : Int))
    (hk' : k - (x.g.z0 : Int) ≤ x.g.nz) : ∀ o ∈ simple x r' z' r z i k q, o.Inc x.g := by
  intro o ho
  unfold simple at ho
  split at ho
  · simp at ho
  · simp only [List.mem_cons, List.not_mem_nil, or_false] at ho
    rcases ho with rfl | rfl | rfl | rfl <;> (unfold Op.Inc insideG; dsimp only; omega)

/-! ### Total axial current -/

theorem sum_mul_ite_int (f : Int → K) (lo hi a : Int) (v : K) (h1 : lo ≤ a) (h2 : a ≤ hi) :
    ∑ u ∈ Finset.Icc lo hi, f u * (if u = a then v else 0) = f a * v := by
  rw [Finset.sum_eq_single a]
  · rw [if_pos rfl]
  · intro b _ hb; rw [if_neg hb, mul_zero]
  · intro h; exact absurd (Finset.mem_Icc.mpr ⟨h1, h2⟩) h

theorem cell_axial (pi : K) (g : Geom K) {i k : Int} {z1 z2 : K} {ops : List (Op K)}
    (hi : -2 ≤ i - (g.r0 : Int)) (hi' : i - (g.r0 : Int) ≤ g.nr) (hk : -2 ≤ k - (g.z0 : Int))
    (hk' : k - (g.z0 : Int) ≤ g.nz)
    (Jz : ∀ u v, tot ops .jz u v = if v = k - g.z0 then
      (if u = i - g.r0 then z1 else if u = i - g.r0 + 1 then z2 else 0) else 0) :
    axialTotal pi g (tot ops) = faceZ pi g i * z1 + faceZ pi g (i + 1) * z2 := by
  unfold axialTotal
  have inner : ∀ a : Int, ∑ b ∈ Finset.Icc (-2 : Int) (g.nz + 1), faceZ pi g (a + g.r0) * tot ops .jz a b =
      faceZ pi g (a + g.r0) * (if a = i - g.r0 then z1 else 0) +
      faceZ pi g (a + g.r0) * (if a = i - g.r0 + 1 then z2 else 0) := by
    intro a
    simp only [Jz]
    rw [sum_mul_ite_int (fun _ => faceZ pi g (a + g.r0)) _ _ _ _ (by omega) (by omega)]
    by_cases h : a = i - g.r0
    · rw [if_pos h, if_pos h, if_neg (by omega)]; ring
    · rw [if_neg h, if_neg h]; ring
  simp only [inner]
  rw [Finset.sum_add_distrib, sum_mul_ite_int (fun a => faceZ pi g (a + g.r0)) _ _ _ _ (by omega) (by omega),
    sum_mul_ite_int (fun a => faceZ pi g (a + g.r0)) _ _ _ _ (by omega) (by omega)]
  have e1 : i - (g.r0 : Int) + g.r0 = i := by omega
  have e2 : i - (g.r0 : Int) + 1 + g.r0 = i + 1 := by omega
  rw [e1, e2]

theorem axialTotal_add (pi : K) (g : Geom K) (J J' : Comp → Int → Int → K) :
    axialTotal pi g (fun c i k => J c i k + J' c i k) = axialTotal pi g J + axialTotal pi g J' := by
  unfold axialTotal
  simp only [mul_add, Finset.sum_add_distrib]

theorem axialTotal_zero (pi : K) (g : Geom K) (J : Comp → Int → Int → K) (h : ∀ i k, J .jz i k = 0) :
    axialTotal pi g J = 0 := by
  unfold axialTotal
  simp only [h, mul_zero, Finset.sum_const_zero]

end VB
end Pico
