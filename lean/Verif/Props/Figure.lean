import Verif.Spec.Figure
import Mathlib.Tactic.Linarith
import Mathlib.Tactic.Positivity
import Mathlib.Tactic.FieldSimp
import Mathlib.Tactic.Ring
import Mathlib.Tactic.NormNum

/-! Property C134: figures show the data where they are. -/

set_option linter.unusedSectionVars false
set_option linter.unusedSimpArgs false
set_option linter.unusedVariables false

namespace Pico
namespace Figure

/-! ### Rounding -/

theorem nearest_err (x : ℝ) : |(nearest x : ℝ) - x| ≤ 1 / 2 := by
  have h0 := Int.floor_le x
  have h1 := Int.lt_floor_add_one x
  unfold nearest
  split_ifs <;> push_cast <;> rw [abs_le] <;> constructor <;> linarith

theorem nearest_mono {n : Int} {x : ℝ} (h : (n : ℝ) ≤ x) : n ≤ nearest x := by
  have := (Int.le_floor.mpr h)
  unfold nearest
  split_ifs <;> omega

theorem nearest_le {n : Int} {x : ℝ} (h : x ≤ n) : nearest x ≤ n := by
  rcases h.lt_or_eq with h | h
  · have := Int.floor_lt.mpr h
    unfold nearest
    split_ifs <;> omega
  · unfold nearest
    rw [h, Int.floor_intCast, if_pos (by norm_num)]

theorem expo_le {x : ℝ} (h : x ≠ 0) : (10 : ℝ) ^ expo x ≤ |x| ∧ |x| < 10 ^ (expo x + 1) := by
  have p := abs_pos.mpr h
  have e : |x| = (10 : ℝ) ^ Real.logb 10 |x| := (Real.rpow_logb (by norm_num) (by norm_num) p).symm
  unfold expo
  constructor
  · conv_rhs => rw [e]
    rw [← Real.rpow_intCast]
    exact Real.rpow_le_rpow_of_exponent_le (by norm_num) (Int.floor_le _)
  · conv_lhs => rw [e]
    rw [← Real.rpow_intCast]
    refine Real.rpow_lt_rpow_of_exponent_lt (by norm_num) ?_
    push_cast
    exact Int.lt_floor_add_one _

theorem sci_written (d : Nat) (x : ℝ) : Written d x (sci d x) := by
  unfold Written sci
  split_ifs with h
  · rw [h]; simp
  have u : (0 : ℝ) < 10 ^ (expo x - (d : Int)) := by positivity
  set t : ℝ := 10 ^ (expo x - (d : Int)) with ht
  have e : (nearest (x / t) : ℝ) * t - x = ((nearest (x / t) : ℝ) - x / t) * t := by field_simp
  rw [e, abs_mul, abs_of_pos u]
  have l := nearest_err (x / t)
  have b : t * 10 ^ d ≤ |x| := by
    have k := (expo_le h).1
    have : t * 10 ^ d = 10 ^ expo x := by
      rw [ht, ← zpow_natCast, ← zpow_add₀ (by norm_num : (10 : ℝ) ≠ 0)]
      congr 1
      omega
    rw [this]
    exact k
  have p : (0 : ℝ) < 10 ^ d := by positivity
  rw [le_div_iff₀ (by positivity)]
  nlinarith [mul_le_mul_of_nonneg_right l (by positivity : 0 ≤ t * (2 * 10 ^ d))]

/-! ### Ticks and labels -/

theorem linspace_len {a b : ℝ} {n : Int} {l : List ℝ} (h : linspace a b n = some l) :
    l.length = n.toNat ∧ ∀ k : Nat, ∀ hk : k < l.length, l[k] = a + k * ((b - a) / (n - 1)) := by
  unfold linspace at h
  split at h
  · cases h
  · cases h
    refine ⟨by simp, fun k hk => by simp⟩

theorem linspace_ok (a b : ℝ) {n : Int} (h : 0 ≤ n) : ∃ l, linspace a b n = some l := by
  unfold linspace
  rw [if_neg (by omega)]
  exact ⟨_, rfl⟩

/-- Ticks of an axis with a size and at least one interval. -/
theorem ticks_all {write : ℝ → ℝ} {a : Axis} (hs : 0 < a.size) (hn : 0 < a.ticks) :
    ∃ l, ticksOf write a = some l ∧ (l.length : Int) = a.ticks + 1 ∧ ∀ k : Nat, ∀ h : k < l.length,
      l[k].pos = k * (a.size / a.ticks) ∧ l[k].label = write (coord a l[k].pos) ∧ (l[k].visible = true ↔ k % 2 = 0) := by
  obtain ⟨p, hp⟩ := linspace_ok 0 a.size (n := a.ticks + 1) (by omega)
  obtain ⟨q, hq⟩ := linspace_ok a.start a.stop (n := a.ticks + 1) (by omega)
  obtain ⟨lp, ep⟩ := linspace_len hp
  obtain ⟨lq, eq⟩ := linspace_len hq
  unfold ticksOf
  rw [hp, Option.bind_some, hq, Option.bind_some, if_pos hs]
  have nz : (a.ticks : ℝ) ≠ 0 := by exact_mod_cast hn.ne'
  have c : ((a.ticks + 1 : Int) : ℝ) - 1 = a.ticks := by push_cast; ring
  refine ⟨_, rfl, ?_, fun k h => ?_⟩
  · simp only [List.length_map, List.length_zipIdx, List.length_zip, lp, lq]
    omega
  · have h' := h
    simp only [List.length_map, List.length_zipIdx, List.length_zip] at h'
    have kp : k < p.length := by omega
    have kq : k < q.length := by omega
    simp only [List.getElem_map, List.getElem_zipIdx, List.getElem_zip, ep k kp, eq k kq, c]
    refine ⟨by ring, ?_, by simp⟩
    congr 1
    unfold coord
    field_simp
    ring

/-- **C134**, ticks: on every axis of every subplot, for every size, coordinates and number of ticks: the ticks divide the axis into equal parts from its first to
its last cell, the number written at each of them is the real coordinate of its place, to three significant digits, and every second number is shown, the first among them. -/
theorem C134_ticks (a : Axis) (q : Ask) (hs : 0 < (a.ask q).size) (hn : 0 < (a.ask q).ticks) :
    ∃ l, flat a q = some l ∧ (l.length : Int) = (a.ask q).ticks + 1 ∧ ∀ k : Nat, ∀ h : k < l.length,
      l[k].pos = k * ((a.ask q).size / (a.ask q).ticks) ∧ Written 2 (coord (a.ask q) l[k].pos) l[k].label ∧ (l[k].visible = true ↔ k % 2 = 0) := by
  obtain ⟨l, e, n, f⟩ := ticks_all (write := sci 2) hs hn
  refine ⟨l, e, n, fun k h => ?_⟩
  obtain ⟨f1, f2, f3⟩ := f k h
  refine ⟨f1, ?_, f3⟩
  rw [f2]
  exact_mod_cast sci_written 2 _

/-- C134, requests: a subplot has the size, coordinates and number of ticks that are asked for, except for zeros, and those of the figure where nothing is asked for. -/
theorem C134_asked_partial (a : Axis) (q : Ask) (h1 : q.size ≠ some 0) (h2 : q.start ≠ some 0) (h3 : q.stop ≠ some 0) (h4 : q.ticks ≠ some 0) :
    a.ask q = ⟨q.size.getD a.size, q.start.getD a.start, q.stop.getD a.stop, q.ticks.getD a.ticks⟩ := by
  have P : ∀ (o : Option ℝ) (d : ℝ), o ≠ some 0 → pick o d = o.getD d := by
    intro o d h
    cases o with
    | none => rfl
    | some x => exact if_neg fun k => h (by rw [k])
  have N : ∀ (o : Option Int) (d : Int), o ≠ some 0 → pickN o d = o.getD d := by
    intro o d h
    cases o with
    | none => rfl
    | some x => exact if_neg fun k => h (by rw [k])
  unfold Axis.ask
  rw [P _ _ h1, P _ _ h2, P _ _ h3, N _ _ h4]

/-- C134, requests, the exception: a subplot of any figure whose axis does not begin at zero cannot have an axis that begins at zero.  Whatever else is asked for, the first tick
shows (nearly) where the axis of the figure begins, and never zero. -/
theorem C134_zero_fails (a : Axis) (q : Ask) (h : a.start ≠ 0) (hq : q.start = some 0) (hs : 0 < (a.ask q).size) (hn : 0 < (a.ask q).ticks) :
    ∃ t l, flat a q = some (t :: l) ∧ t.pos = 0 ∧ Written 2 a.start t.label ∧ t.label ≠ 0 := by
  obtain ⟨l, e, n, f⟩ := C134_ticks a q hs hn
  have s : (a.ask q).start = a.start := by
    unfold Axis.ask
    rw [hq]
    exact if_pos rfl
  cases l with
  | nil => rw [List.length_nil] at n; push_cast at n; omega
  | cons t l =>
    obtain ⟨f1, f2, _⟩ := f 0 (by simp)
    simp only [List.getElem_cons_zero, Nat.cast_zero, zero_mul] at f1 f2
    have c : coord (a.ask q) t.pos = a.start := by
      unfold coord
      rw [f1, s]
      simp
    rw [c] at f2
    refine ⟨t, l, e, f1, f2, fun k => ?_⟩
    unfold Written at f2
    rw [k, zero_sub, abs_neg] at f2
    have := abs_pos.mpr h
    linarith

/-! ### Number of ticks -/

theorem tick_size {a b c : ℝ} {guess : Int} (hg : 0 < guess) (hm : 0 < max a (max b c)) :
    ∃ u, tickSize a b c guess = some u ∧ 0 < u ∧ guess * u ≤ max a (max b c) ∧ max a (max b c) < 2 * guess * u := by
  unfold tickSize
  dsimp only
  rw [if_neg (by linarith), if_neg hg.ne']
  generalize max a (max b c) = m at hm
  have e := expo_le hm.ne'
  unfold expo at e
  rw [abs_of_pos hm] at e
  have g : (0 : ℝ) < guess := by exact_mod_cast hg
  have p : (0 : ℝ) < 10 ^ ⌊Real.logb 10 m⌋ := by positivity
  refine ⟨_, rfl, ?_⟩
  set t : ℝ := 10 ^ ⌊Real.logb 10 m⌋
  have q1 : 1 ≤ m / t := by rw [le_div_iff₀ p]; linarith [e.1]
  have f1 : (1 : Int) ≤ ⌊m / t⌋ := Int.le_floor.mpr (by exact_mod_cast q1)
  have f1' : (1 : ℝ) ≤ (⌊m / t⌋ : ℝ) := by exact_mod_cast f1
  have f2 := Int.floor_le (m / t)
  have f3 := Int.lt_floor_add_one (m / t)
  have e1 : (guess : ℝ) * ((⌊m / t⌋ : ℝ) / guess * t) = ⌊m / t⌋ * t := by field_simp
  refine ⟨by positivity, ?_, ?_⟩
  · rw [e1]
    exact (le_div_iff₀ p).mp f2
  · rw [mul_assoc, e1]
    have := (div_lt_iff₀ p).mp f3
    nlinarith

/-- **C134**, number of ticks: a figure with sizes, in which the number of ticks is left open, has on its longest axis at least as many intervals as it is told to guess, and on all axes at most twice
as many; all axes have intervals of (nearly) one real length. -/
theorem C134_number (x y z : Given) (guess : Int) (hg : 0 < guess) (hx : 0 < x.size) (hy : 0 < y.size) (h : x.ticks = none ∧ y.ticks = none ∧ z.ticks = none)
    (hm : 0 < x.extent ∨ 0 < y.extent ∨ 0 < z.extent) :
    ∃ b u, figure x y z guess = some b ∧ 0 < u ∧
      ∀ g a, (g, a) ∈ [(x, b.x), (y, b.y), (z, b.z)] →
        a.size = g.size ∧ a.start = g.start ∧ a.stop - a.start = g.extent ∧ |a.ticks - g.extent / u| ≤ 1 / 2 ∧ a.ticks ≤ 2 * guess ∧ (0 ≤ g.extent → 0 ≤ a.ticks) ∧
        ((x.extent ≤ g.extent ∧ y.extent ≤ g.extent ∧ z.extent ≤ g.extent) → guess ≤ a.ticks) := by
  have M : 0 < max x.extent (max y.extent z.extent) := by
    rcases hm with k | k | k
    · exact lt_of_lt_of_le k (le_max_left _ _)
    · exact lt_of_lt_of_le k ((le_max_left _ _).trans (le_max_right _ _))
    · exact lt_of_lt_of_le k ((le_max_right _ _).trans (le_max_right _ _))
  obtain ⟨u, e, u0, l1, l2⟩ := tick_size hg M
  refine ⟨⟨axisOf x u, axisOf y u, axisOf z u⟩, u, ?_, u0, ?_⟩
  · unfold figure
    rw [if_pos ⟨hx, hy⟩, e]
    rfl
  · have one : ∀ g : Given, g.ticks = none → g.extent ≤ max x.extent (max y.extent z.extent) →
        (axisOf g u).size = g.size ∧ (axisOf g u).start = g.start ∧ (axisOf g u).stop - (axisOf g u).start = g.extent ∧ |(axisOf g u).ticks - g.extent / u| ≤ 1 / 2 ∧
        (axisOf g u).ticks ≤ 2 * guess ∧ (0 ≤ g.extent → 0 ≤ (axisOf g u).ticks) ∧
        ((x.extent ≤ g.extent ∧ y.extent ≤ g.extent ∧ z.extent ≤ g.extent) → guess ≤ (axisOf g u).ticks) := by
      intro g hg' le
      have t : (axisOf g u).ticks = nearest (g.extent / u) := by
        unfold axisOf
        dsimp only
        rw [hg']
        rfl
      refine ⟨rfl, rfl, rfl, by rw [t]; exact nearest_err _, ?_, fun k => ?_, fun k => ?_⟩
      · rw [t]
        refine nearest_le ?_
        rw [div_le_iff₀ u0]
        push_cast
        linarith
      · rw [t]
        refine nearest_mono ?_
        push_cast
        positivity
      · rw [t]
        refine nearest_mono ?_
        rw [le_div_iff₀ u0]
        have := max_le k.1 (max_le k.2.1 k.2.2)
        linarith
    intro g a hga
    simp only [List.mem_cons, Prod.mk.injEq, List.not_mem_nil, or_false] at hga
    rcases hga with ⟨rfl, rfl⟩ | ⟨rfl, rfl⟩ | ⟨rfl, rfl⟩
    · exact one _ h.1 (le_max_left _ _)
    · exact one _ h.2.1 ((le_max_left _ _).trans (le_max_right _ _))
    · exact one _ h.2.2 ((le_max_right _ _).trans (le_max_right _ _))

/-- C134, the exceptions: a figure with sizes that is shown backwards (or at one point) on all axes cannot be made, even when the numbers of ticks are given. -/
theorem C134_backwards_fails (x y z : Given) (guess : Int) (hx : 0 < x.size) (hy : 0 < y.size) (h : x.extent ≤ 0 ∧ y.extent ≤ 0 ∧ z.extent ≤ 0) :
    figure x y z guess = none := by
  unfold figure tickSize
  rw [if_pos ⟨hx, hy⟩]
  dsimp only
  rw [if_pos (max_le h.1 (max_le h.2.1 h.2.2))]
  rfl

/-- C134, the exceptions: in a figure without sizes the requested numbers of ticks are ignored. -/
theorem C134_ignored_fails (x y z : Given) (guess : Int) (h : x.size ≤ 0 ∨ y.size ≤ 0) :
    ∃ b, figure x y z guess = some b ∧ b.x.ticks = guess ∧ b.y.ticks = guess ∧ b.z.ticks = guess := by
  unfold figure
  rw [if_neg (by rintro ⟨k, l⟩; rcases h with h | h <;> linarith)]
  exact ⟨_, rfl, rfl, rfl, rfl⟩

/-- C134, third axis: its labels have five decimals, so that all labels of an axis of at most five micrometres are zero. -/
theorem C134_third_fails (a : Axis) (q : Ask) (hs : 0 < (a.ask q).size) (hn : 0 < (a.ask q).ticks) (h0 : (a.ask q).start = 0) (h1 : 0 ≤ (a.ask q).stop)
    (h2 : (a.ask q).stop < 5 / 10 ^ 6) : ∃ l, deep a q = some l ∧ (l.length : Int) = (a.ask q).ticks + 1 ∧ ∀ t ∈ l, t.label = 0 := by
  obtain ⟨l, e, n, f⟩ := ticks_all (write := around5) hs hn
  refine ⟨l, e, n, fun t ht => ?_⟩
  obtain ⟨k, hk, rfl⟩ := List.getElem_of_mem ht
  obtain ⟨f1, f2, _⟩ := f k hk
  rw [f2]
  have kn : (k : ℝ) ≤ ((a.ask q).ticks : ℝ) := by
    have : (k : Int) ≤ (a.ask q).ticks := by omega
    exact_mod_cast this
  have tn : (0 : ℝ) < ((a.ask q).ticks : ℝ) := by exact_mod_cast hn
  have c : coord (a.ask q) l[k].pos = (a.ask q).stop * (k / (a.ask q).ticks) := by
    unfold coord
    rw [f1, h0]
    field_simp
    ring
  have r1 : (k : ℝ) / (a.ask q).ticks ≤ 1 := (div_le_one tn).mpr kn
  have r0 : 0 ≤ (k : ℝ) / (a.ask q).ticks := by positivity
  have lo : 0 ≤ coord (a.ask q) l[k].pos := by rw [c]; positivity
  have hi : coord (a.ask q) l[k].pos < 5 / 10 ^ 6 := by
    rw [c]
    nlinarith
  generalize coord (a.ask q) l[k].pos = v at lo hi
  have fl : ⌊v * 10 ^ 5⌋ = 0 := by
    rw [Int.floor_eq_zero_iff]
    constructor
    · positivity
    · norm_num at hi ⊢; linarith
  unfold around5 nearest
  rw [fl, if_pos (by push_cast; norm_num at hi ⊢; linarith)]
  simp

/-! ### Images and colour bars -/

/-- **C134**, images: a figure with sizes draws an array unchanged if it has as many rows as the vertical and as many columns as the horizontal axis has cells, and refuses it otherwise. -/
theorem C134_image {α : Type} (b : Builder) (hx : 0 < b.x.size) (hy : 0 < b.y.size) (data : List (List α)) {w : Nat} (hw : ∀ r ∈ data, r.length = w) (ne : data ≠ []) :
    addImage b data = if (w : ℝ) = b.x.size ∧ (data.length : ℝ) = b.y.size then some data else none := by
  cases data with
  | nil => exact absurd rfl ne
  | cons r d =>
    unfold addImage
    dsimp only
    rw [hw r (by simp)]
    by_cases k1 : (w : ℝ) = b.x.size <;> by_cases k2 : (((r :: d).length : Nat) : ℝ) = b.y.size
    · rw [if_neg (fun h => h.1 k1), if_neg (fun h => h.1 k2), if_pos ⟨k1, k2⟩]
    · rw [if_neg (fun h => h.1 k1), if_pos ⟨k2, hy⟩, if_neg (fun h => k2 h.2)]
    · rw [if_pos ⟨k1, hx⟩, if_neg (fun h => k1 h.1)]
    · rw [if_pos ⟨k1, hx⟩, if_neg (fun h => k1 h.1)]

/-- C134, images, the exception: a subplot with a width of its own that is not the one of the figure refuses all arrays of its width and has axes for another array than the one it accepts. -/
theorem C134_width_fails {α : Type} (b : Builder) (q : Ask) (hx : 0 < b.x.size) (hd : (b.x.ask q).size ≠ b.x.size) (data : List (List α)) {w : Nat}
    (hw : ∀ r ∈ data, r.length = w) :
    ((w : ℝ) = (b.x.ask q).size → addImage b data = none) ∧ (∀ d, addImage b data = some d → (w : ℝ) ≠ (b.x.ask q).size) := by
  have one : (w : ℝ) = (b.x.ask q).size → addImage b data = none := by
    intro e
    cases data with
    | nil => rfl
    | cons r d =>
      unfold addImage
      dsimp only
      rw [hw r (by simp), if_pos ⟨by rw [e]; exact hd, hx⟩]
  exact ⟨one, fun d k e => by rw [one e] at k; cases k⟩

/-- **C134**, colour bars: at every tick of a colour bar stands its value, to two significant digits; if other labels are asked for, the linear scale with the asked labels at the ends. -/
theorem C134_colorbar (n : Int) (hn : 2 ≤ n) (t : ℝ × ℝ) (ht : t.1 ≠ t.2) (l : Option (ℝ × ℝ)) :
    ∃ c, colorbar n t l = some c ∧ (c.length : Int) = n ∧ ∀ k : Nat, ∀ h : k < c.length,
      c[k].1 = t.1 + k * ((t.2 - t.1) / (n - 1)) ∧
      Written 1 (match l with | none => c[k].1 | some m => m.1 + (m.2 - m.1) * ((c[k].1 - t.1) / (t.2 - t.1))) c[k].2 := by
  obtain ⟨p, hp⟩ := linspace_ok t.1 t.2 (n := n) (by omega)
  obtain ⟨lp, ep⟩ := linspace_len hp
  have nz : ((n : ℝ) - 1) ≠ 0 := by
    have : (2 : ℝ) ≤ n := by exact_mod_cast hn
    linarith
  have tz : t.2 - t.1 ≠ 0 := sub_ne_zero.mpr (Ne.symm ht)
  unfold colorbar
  rw [hp, Option.bind_some]
  cases l with
  | none =>
    dsimp only
    rw [Option.bind_some]
    refine ⟨_, rfl, ?_, fun k h => ?_⟩
    · simp only [List.length_zip, List.length_map, lp]
      omega
    · have kp : k < p.length := by simpa using h
      simp only [List.getElem_zip, List.getElem_map]
      exact ⟨ep k kp, by exact_mod_cast sci_written 1 _⟩
  | some m =>
    obtain ⟨q, hq⟩ := linspace_ok m.1 m.2 (n := n) (by omega)
    obtain ⟨lq, eq⟩ := linspace_len hq
    dsimp only
    rw [hq, Option.bind_some]
    refine ⟨_, rfl, ?_, fun k h => ?_⟩
    · simp only [List.length_zip, List.length_map, lp, lq]
      omega
    · have h' := h
      simp only [List.length_zip, List.length_map] at h'
      have kp : k < p.length := by omega
      have kq : k < q.length := by omega
      simp only [List.getElem_zip, List.getElem_map, ep k kp, eq k kq]
      refine ⟨trivial, ?_⟩
      have e : m.1 + (m.2 - m.1) * ((t.1 + k * ((t.2 - t.1) / ((n : ℝ) - 1)) - t.1) / (t.2 - t.1)) = m.1 + k * ((m.2 - m.1) / ((n : ℝ) - 1)) := by
        field_simp
        ring
      rw [e]
      exact_mod_cast sci_written 1 _

/-! ### Examples -/

/-- A figure of a chamber of 512 by 128 cells, half a metre long. -/
noncomputable def exX : Given := ⟨512, 0, some (1/2), none⟩
noncomputable def exY : Given := ⟨128, 0, some (1/8), none⟩
noncomputable def exZ : Given := ⟨0, 0, none, none⟩

example := C134_number exX exY exZ 40 (by norm_num) (by norm_num [exX]) (by norm_num [exY]) ⟨rfl, rfl, rfl⟩ (Or.inl (by norm_num [exX, Given.extent, pick]))

/-- A part of it. -/
noncomputable def exA : Axis := ⟨512, 1/4, 1/2, 50⟩

example := C134_ticks exA ⟨some 100, none, none, some 10⟩ (by norm_num [exA, Axis.ask, pick]) (by norm_num [exA, Axis.ask, pickN])
example := C134_asked_partial exA ⟨some 100, none, none, some 10⟩ (by norm_num) (by simp) (by simp) (by simp)
example := C134_zero_fails exA ⟨some 100, some 0, none, some 10⟩ (by norm_num [exA]) rfl (by norm_num [exA, Axis.ask, pick]) (by norm_num [exA, Axis.ask, pickN])
example := C134_backwards_fails ⟨512, 1/2, some (1/4), some 5⟩ ⟨128, 1, some (1/8), some 5⟩ exZ 40 (by norm_num) (by norm_num)
  (by norm_num [Given.extent, pick, exZ])
example := C134_ignored_fails ⟨0, 0, some (1/4), some 5⟩ exY exZ 40 (Or.inl le_rfl)
example := C134_third_fails ⟨100, 0, 4 / 10 ^ 6, 40⟩ ⟨none, none, none, none⟩ (by norm_num [Axis.ask, pick]) (by norm_num [Axis.ask, pickN])
  (by norm_num [Axis.ask, pick]) (by norm_num [Axis.ask, pick]) (by norm_num [Axis.ask, pick])
example := C134_image (α := Nat) ⟨⟨3, 0, 1, 5⟩, ⟨2, 0, 1, 5⟩, ⟨0, 0, 0, 0⟩⟩ (by norm_num) (by norm_num) [[1, 2, 3], [4, 5, 6]] (w := 3) (by simp) (by simp)
example := C134_width_fails (α := Nat) ⟨⟨3, 0, 1, 5⟩, ⟨2, 0, 1, 5⟩, ⟨0, 0, 0, 0⟩⟩ ⟨some 2, none, none, none⟩ (by norm_num) (by norm_num [Axis.ask, pick])
  [[1, 2], [4, 5]] (w := 2) (by simp)
example := C134_colorbar 3 (by norm_num) (-1, 1) (by norm_num) (some (0, 5))

end Figure
end Pico
