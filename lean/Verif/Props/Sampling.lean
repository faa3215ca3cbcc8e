import Verif.Props.Velocity
import Mathlib.Data.List.Chain
import Mathlib.Analysis.Complex.ExponentialBounds

/-!
# Sampling of thermal energies (C80, C81)

Specification: there is one energy for every particle, it is a number and not negative, and the larger the random
number the larger the energy (the tables hold the inverse of a distribution function).
-/

set_option linter.unusedSectionVars false
set_option linter.unusedSimpArgs false
set_option linter.unusedVariables false

namespace Pico
namespace Vel

/-! ### Facts about the tables, checked entry by entry -/

set_option maxRecDepth 20000 in
theorem tableF_len : tableF.length = 1000 := by decide +kernel
set_option maxRecDepth 20000 in
theorem tableH_len : tableH.length = 1000 := by decide +kernel
set_option maxRecDepth 20000 in
theorem tableF_chain : tableF.IsChain (· > ·) := by decide +kernel
set_option maxRecDepth 20000 in
theorem tableH_chain : tableH.IsChain (· < ·) := by decide +kernel

theorem tableF_pair : tableF.Pairwise (· > ·) := List.isChain_iff_pairwise.mp tableF_chain
theorem tableH_pair : tableH.Pairwise (· < ·) := List.isChain_iff_pairwise.mp tableH_chain

theorem entry_ok {t : List Int} {i : Nat} (h : i < t.length) : entry t i = .ok ((t[i] : ℝ) / 10 ^ 21) := by
  unfold entry
  rw [List.getElem?_eq_getElem h]

theorem entry_ub {t : List Int} {i : Nat} (h : t.length ≤ i) : entry t i = .ub := by
  unfold entry
  rw [List.getElem?_eq_none h]

theorem getD_lt {t : List Int} {i : Nat} (h : i < t.length) : t.getD i 0 = t[i] := by simp [List.getD, h]

/-- The broken line through the table. -/
noncomputable def line (t : List Int) (x : ℝ) : ℝ :=
  (t.getD ⌊x⌋₊ 0 : ℝ) / 10 ^ 21 + (x - ⌊x⌋₊) * ((t.getD (⌊x⌋₊ + 1) 0 : ℝ) / 10 ^ 21 - (t.getD ⌊x⌋₊ 0 : ℝ) / 10 ^ 21)

theorem lookup_ok {t : List Int} {x : ℝ} (h0 : 0 ≤ x) (h : ⌊x⌋₊ + 1 < t.length) : lookup t x = .ok (Real.exp (line t x)) := by
  unfold lookup line
  rw [if_neg (not_lt.mpr h0)]
  dsimp only
  rw [entry_ok (by omega : ⌊x⌋₊ < t.length), Res.ok_bind, entry_ok h, Res.ok_bind, getD_lt (by omega : ⌊x⌋₊ < t.length), getD_lt h]

theorem lookup_ub {t : List Int} {x : ℝ} (h0 : 0 ≤ x) (h : t.length ≤ ⌊x⌋₊ + 1) (h1 : ⌊x⌋₊ < t.length) : lookup t x = .ub := by
  unfold lookup
  rw [if_neg (not_lt.mpr h0)]
  dsimp only
  rw [entry_ok h1, Res.ok_bind, entry_ub h, Res.ub_bind]

/-- In a falling table the line falls. -/
theorem line_anti {t : List Int} (hp : t.Pairwise (· > ·)) {x y : ℝ} (hx : 0 ≤ x) (h : x ≤ y) (hy : ⌊y⌋₊ + 1 < t.length) :
    line t y ≤ line t x := by
  have hg : ∀ i j, i ≤ j → j < t.length → (t.getD j 0 : ℝ) ≤ t.getD i 0 := by
    intro i j hij hj
    rcases Nat.lt_or_ge i j with hl | hl
    · have := List.pairwise_iff_getElem.mp hp i j (by omega) hj hl
      rw [getD_lt hj, getD_lt (by omega : i < t.length)]
      exact_mod_cast this.le
    · have : i = j := by omega
      rw [this]
  have fl : ⌊x⌋₊ ≤ ⌊y⌋₊ := Nat.floor_le_floor h
  have x1 := Nat.floor_le hx
  have x2 := Nat.lt_floor_add_one x
  have y1 := Nat.floor_le (hx.trans h)
  have y2 := Nat.lt_floor_add_one y
  unfold line
  set a := (t.getD ⌊x⌋₊ 0 : ℝ) / 10 ^ 21 with ha
  set b := (t.getD (⌊x⌋₊ + 1) 0 : ℝ) / 10 ^ 21 with hb
  set p := (t.getD ⌊y⌋₊ 0 : ℝ) / 10 ^ 21 with hp'
  set r := (t.getD (⌊y⌋₊ + 1) 0 : ℝ) / 10 ^ 21 with hr
  have ab : b ≤ a := by
    rw [ha, hb]
    have := hg ⌊x⌋₊ (⌊x⌋₊ + 1) (by omega) (by omega)
    gcongr
  have pr : r ≤ p := by
    rw [hr, hp']
    have := hg ⌊y⌋₊ (⌊y⌋₊ + 1) (by omega) hy
    gcongr
  rcases Nat.lt_or_ge ⌊x⌋₊ ⌊y⌋₊ with hl | hl
  · have pb : p ≤ b := by
      rw [hp', hb]
      have := hg (⌊x⌋₊ + 1) ⌊y⌋₊ (by omega) (by omega)
      gcongr
    have e1 : b ≤ a + (x - ⌊x⌋₊) * (b - a) := by nlinarith
    have e2 : p + (y - ⌊y⌋₊) * (r - p) ≤ p := by nlinarith
    linarith
  · have e : ⌊y⌋₊ = ⌊x⌋₊ := by omega
    have e1 : p = a := by rw [hp', ha, e]
    have e2 : r = b := by rw [hr, hb, e]
    rw [e1, e2, e]
    nlinarith

/-- In a rising table it rises. -/
theorem line_mono {t : List Int} (hp : t.Pairwise (· < ·)) {x y : ℝ} (hx : 0 ≤ x) (h : x ≤ y) (hy : ⌊y⌋₊ + 1 < t.length) :
    line t x ≤ line t y := by
  have hg : ∀ i j, i ≤ j → j < t.length → (t.getD i 0 : ℝ) ≤ t.getD j 0 := by
    intro i j hij hj
    rcases Nat.lt_or_ge i j with hl | hl
    · have := List.pairwise_iff_getElem.mp hp i j (by omega) hj hl
      rw [getD_lt hj, getD_lt (by omega : i < t.length)]
      exact_mod_cast this.le
    · have : i = j := by omega
      rw [this]
  have fl : ⌊x⌋₊ ≤ ⌊y⌋₊ := Nat.floor_le_floor h
  have x1 := Nat.floor_le hx
  have x2 := Nat.lt_floor_add_one x
  have y1 := Nat.floor_le (hx.trans h)
  have y2 := Nat.lt_floor_add_one y
  unfold line
  set a := (t.getD ⌊x⌋₊ 0 : ℝ) / 10 ^ 21 with ha
  set b := (t.getD (⌊x⌋₊ + 1) 0 : ℝ) / 10 ^ 21 with hb
  set p := (t.getD ⌊y⌋₊ 0 : ℝ) / 10 ^ 21 with hp'
  set r := (t.getD (⌊y⌋₊ + 1) 0 : ℝ) / 10 ^ 21 with hr
  have ab : a ≤ b := by
    rw [ha, hb]
    have := hg ⌊x⌋₊ (⌊x⌋₊ + 1) (by omega) (by omega)
    gcongr
  have pr : p ≤ r := by
    rw [hr, hp']
    have := hg ⌊y⌋₊ (⌊y⌋₊ + 1) (by omega) hy
    gcongr
  rcases Nat.lt_or_ge ⌊x⌋₊ ⌊y⌋₊ with hl | hl
  · have pb : b ≤ p := by
      rw [hp', hb]
      have := hg (⌊x⌋₊ + 1) ⌊y⌋₊ (by omega) (by omega)
      gcongr
    have e1 : a + (x - ⌊x⌋₊) * (b - a) ≤ b := by nlinarith
    have e2 : p ≤ p + (y - ⌊y⌋₊) * (r - p) := by nlinarith
    linarith
  · have e : ⌊y⌋₊ = ⌊x⌋₊ := by omega
    have e1 : p = a := by rw [hp', ha, e]
    have e2 : r = b := by rw [hr, hb, e]
    rw [e1, e2, e]
    nlinarith

/-! ### Classical case -/

/-- `log(-log U)`, the position of a random number in the first table. -/
noncomputable def lnln (U : ℝ) : ℝ := Real.log (-Real.log U)

theorem posF {x : ℝ} (h1 : -19 ≤ x) (h2 : x < 2) : 0 ≤ (x + 19) * (999 / (2 + 19)) ∧ ⌊(x + 19) * (999 / (2 + 19) : ℝ)⌋₊ + 1 < tableF.length := by
  have h : 0 ≤ (x + 19) * (999 / (2 + 19)) := by
    have : 0 ≤ x + 19 := by linarith
    positivity
  refine ⟨h, ?_⟩
  rw [tableF_len]
  have : (x + 19) * (999 / (2 + 19)) < (999 : ℕ) := by push_cast; linarith
  have := (Nat.floor_lt h).mpr this
  omega

/-- Largest entry of the first table: below `log 21`. -/
theorem lineF_le {x : ℝ} (h0 : 0 ≤ x) (h : ⌊x⌋₊ + 1 < tableF.length) : line tableF x ≤ 3.03 := by
  have h1 := line_anti tableF_pair le_rfl h0 h
  have e : line tableF 0 = (tableF.getD 0 0 : ℝ) / 10 ^ 21 := by unfold line; simp
  have e2 : tableF.getD 0 0 = 3028113261189336214000 := rfl
  rw [e, e2] at h1
  norm_num at h1 ⊢
  linarith

theorem invF_table {U : ℝ} (hU : 0 < U) (h1 : -19 ≤ lnln U) (h2 : lnln U < 2) :
    invF U = .ok (Real.exp (line tableF ((lnln U + 19) * (999 / (2 + 19))))) := by
  have hn : ¬ (U = 0 ∨ 2 < lnln U) := by rintro (h | h) <;> linarith
  show (if U = 0 ∨ 2 < lnln U then _ else if lnln U < -19 then _ else lookup tableF ((lnln U + 19) * (999 / (2 + 19)))) = _
  rw [if_neg hn, if_neg (not_lt.mpr h1)]
  exact lookup_ok (posF h1 h2).1 (posF h1 h2).2

theorem invF_low {U : ℝ} (h : U = 0 ∨ 2 < lnln U) : invF U = .ok (4 / 3 * Real.sqrt Real.pi * U ^ (2 / 3 : ℝ)) := by
  show (if U = 0 ∨ 2 < lnln U then _ else _) = _
  rw [if_pos h]

theorem invF_high {U : ℝ} (hU : U ≠ 0) (h : lnln U < -19) : invF U = .ok 1 := by
  have hn : ¬ (U = 0 ∨ 2 < lnln U) := by rintro (h1 | h1); exact hU h1; linarith
  show (if U = 0 ∨ 2 < lnln U then _ else if lnln U < -19 then _ else _) = _
  rw [if_neg hn, if_pos h]

theorem exp_small : Real.exp 3.03 ≤ 21 := by
  have h : (3.03 : ℝ) = 1 + 1 + 1 + 0.03 := by norm_num
  have h1 : Real.exp 1 ≤ 2.7182818286 := Real.exp_one_lt_d9.le
  have h2 : Real.exp 0.03 ≤ 1.031 := by
    have := Real.exp_bound' (x := 0.03) (by norm_num) (by norm_num) (n := 2) (by norm_num)
    refine this.trans ?_
    norm_num [Finset.sum_range_succ, Nat.factorial]
  have p1 := Real.exp_pos 1
  have p2 := Real.exp_pos 0.03
  rw [h, Real.exp_add, Real.exp_add, Real.exp_add]
  calc Real.exp 1 * Real.exp 1 * Real.exp 1 * Real.exp 0.03
      ≤ 2.7182818286 * 2.7182818286 * 2.7182818286 * 1.031 := by gcongr
    _ ≤ 21 := by norm_num

/-- One energy: the factor is between zero and 21, unless the random number sits exactly on the end of the table. -/
theorem invF_range {U : ℝ} (h0 : 0 ≤ U) (h1 : U < 1) (h : lnln U ≠ 2) : ∃ f, invF U = .ok f ∧ 0 ≤ f ∧ f ≤ 21 := by
  by_cases hl : U = 0 ∨ 2 < lnln U
  · refine ⟨_, invF_low hl, by positivity, ?_⟩
    have a : U ^ (2 / 3 : ℝ) ≤ 1 := Real.rpow_le_one h0 h1.le (by norm_num)
    have b : Real.sqrt Real.pi ≤ 2 := by
      rw [show (2 : ℝ) = Real.sqrt 4 by rw [show (4 : ℝ) = 2 ^ 2 by norm_num, Real.sqrt_sq (by norm_num)]]
      exact Real.sqrt_le_sqrt Real.pi_le_four
    have c : 0 ≤ U ^ (2 / 3 : ℝ) := by positivity
    calc 4 / 3 * Real.sqrt Real.pi * U ^ (2 / 3 : ℝ) ≤ 4 / 3 * 2 * 1 := by gcongr
      _ ≤ 21 := by norm_num
  · have hU : 0 < U := lt_of_le_of_ne h0 (fun e => hl (Or.inl e.symm))
    by_cases hh : lnln U < -19
    · exact ⟨1, invF_high hU.ne' hh, by norm_num, by norm_num⟩
    · have h2 : lnln U < 2 := lt_of_le_of_ne (not_lt.mp fun e => hl (Or.inr e)) h
      have h3 := not_lt.mp hh
      refine ⟨_, invF_table hU h3 h2, (Real.exp_pos _).le, ?_⟩
      refine le_trans ?_ exp_small
      exact Real.exp_le_exp.mpr (lineF_le (posF h3 h2).1 (posF h3 h2).2)

/-- **C80**, partial (temperatures below the switch at `0.1`): one energy for each particle, a number between zero and
21 temperatures, for all random numbers of `[0, 1)` except one value. -/
theorem C80_classical_partial {T : ℝ} (hT : 0 ≤ T) (hc : T < 0.1) (n : Nat) (us : Nat → ℝ) (ws : List (ℝ × ℝ))
    (hu : ∀ i < n, 0 ≤ us i ∧ us i < 1 ∧ lnln (us i) ≠ 2) :
    ∃ es : List ℝ, sample n T us ws = some (.ok (es.map some)) ∧ es.length = n ∧ ∀ e ∈ es, 0 ≤ e ∧ e ≤ 21 * T := by
  have key : ∀ l : List ℝ, (∀ u ∈ l, 0 ≤ u ∧ u < 1 ∧ lnln u ≠ 2) →
      ∃ es : List ℝ, classical T l = .ok es ∧ es.length = l.length ∧ ∀ e ∈ es, 0 ≤ e ∧ e ≤ 21 * T := by
    intro l
    induction l with
    | nil => intro _; exact ⟨[], rfl, rfl, by simp⟩
    | cons u l ih =>
      intro h
      obtain ⟨es, e1, e2, e3⟩ := ih fun x hx => h x (List.mem_cons_of_mem _ hx)
      obtain ⟨a, b, c⟩ := h u List.mem_cons_self
      obtain ⟨f, f1, f2, f3⟩ := invF_range a b c
      refine ⟨T * f :: es, ?_, by simp [e2], ?_⟩
      · rw [classical, f1, Res.ok_bind, e1, Res.ok_bind]
      · intro e he
        rcases List.mem_cons.mp he with rfl | he
        · exact ⟨by positivity, by nlinarith⟩
        · exact e3 e he
  obtain ⟨es, e1, e2, e3⟩ := key ((List.range n).map us) (by
    intro u hu'
    obtain ⟨i, hi, rfl⟩ := List.mem_map.mp hu'
    exact hu i (List.mem_range.mp hi))
  refine ⟨es, ?_, by simpa using e2, e3⟩
  unfold sample
  rw [if_pos hc, e1, Res.ok_bind]

/-- The exception: the random number `exp(-exp 2)` makes the program read past the end of the table. -/
theorem C80_table_end_fails {T : ℝ} (hc : T < 0.1) (n : Nat) (us : Nat → ℝ) (ws : List (ℝ × ℝ)) (h : us 0 = Real.exp (-Real.exp 2)) :
    0 < us 0 ∧ us 0 < 1 ∧ sample (n + 1) T us ws = some .ub := by
  refine ⟨by rw [h]; exact Real.exp_pos _, by rw [h, Real.exp_lt_one_iff]; simp [Real.exp_pos], ?_⟩
  have l : lnln (us 0) = 2 := by unfold lnln; rw [h, Real.log_exp, neg_neg, Real.log_exp]
  have hp : us 0 ≠ 0 := by rw [h]; exact (Real.exp_pos _).ne'
  have e : invF (us 0) = .ub := by
    have hn : ¬ (us 0 = 0 ∨ 2 < lnln (us 0)) := by rw [l]; rintro (h1 | h1); exact hp h1; linarith
    show (if us 0 = 0 ∨ 2 < lnln (us 0) then _ else if lnln (us 0) < -19 then _ else lookup tableF ((lnln (us 0) + 19) * (999 / (2 + 19)))) = _
    rw [if_neg hn, l, if_neg (by norm_num), show ((2 : ℝ) + 19) * (999 / (2 + 19)) = (999 : ℕ) by norm_num]
    exact lookup_ub (by positivity) (by rw [Nat.floor_natCast, tableF_len]) (by rw [Nat.floor_natCast, tableF_len]; norm_num)
  unfold sample
  rw [if_pos hc, List.range_succ_eq_map, List.map_cons, classical, e, Res.ub_bind, Res.ub_bind]

theorem sample_one {T U f : ℝ} (hc : T < 0.1) (h : invF U = .ok f) : sample 1 T (fun _ => U) [] = some (.ok [some (T * f)]) := by
  unfold sample
  rw [if_pos hc]
  show some ((classical T [U]) >>= _) = _
  rw [classical, h, Res.ok_bind, classical, Res.ok_bind, Res.ok_bind]
  rfl

/-- **C81**, partial: between the ends of the table a larger random number gives at least as large an energy. -/
theorem C81_classical_partial {T U V : ℝ} (hT : 0 ≤ T) (hc : T < 0.1) (hU : 0 < U) (hUV : U ≤ V) (hV : V < 1)
    (h1 : lnln U < 2) (h2 : -19 ≤ lnln V) :
    ∃ e f : ℝ, sample 1 T (fun _ => U) [] = some (.ok [some e]) ∧ sample 1 T (fun _ => V) [] = some (.ok [some f]) ∧ e ≤ f := by
  have mono : lnln V ≤ lnln U := by
    unfold lnln
    have a : Real.log U ≤ Real.log V := Real.log_le_log hU hUV
    have b : Real.log V < 0 := Real.log_neg (hU.trans_le hUV) hV
    exact Real.log_le_log (by linarith) (by linarith)
  have eU := invF_table hU (h2.trans mono) h1
  have eV := invF_table (hU.trans_le hUV) h2 (mono.trans_lt h1)
  refine ⟨_, _, sample_one hc eU, sample_one hc eV, ?_⟩
  apply mul_le_mul_of_nonneg_left _ hT
  apply Real.exp_le_exp.mpr
  apply line_anti tableF_pair (posF h2 (mono.trans_lt h1)).1 _ (posF (h2.trans mono) h1).2
  have : lnln V + 19 ≤ lnln U + 19 := by linarith
  gcongr

theorem exp_2 : Real.exp 2.05 ≤ 7.78 := by
  have h : (2.05 : ℝ) = 1 + 1 + 0.05 := by norm_num
  have h1 : Real.exp 1 ≤ 2.7182818286 := Real.exp_one_lt_d9.le
  have h2 : Real.exp 0.05 ≤ 1.0525 := by
    have := Real.exp_bound' (x := 0.05) (by norm_num) (by norm_num) (n := 2) (by norm_num)
    refine this.trans ?_
    norm_num [Finset.sum_range_succ, Nat.factorial]
  have p1 := Real.exp_pos 1
  have p2 := Real.exp_pos 0.05
  rw [h, Real.exp_add, Real.exp_add]
  calc Real.exp 1 * Real.exp 1 * Real.exp 0.05 ≤ 2.7182818286 * 2.7182818286 * 1.0525 := by gcongr
    _ ≤ 7.78 := by norm_num

/-- The lower tail fails: its constant is `4/3` instead of `3/4` (`THREE_OVER_4`), and smaller random numbers than those
of the last cell of the table give larger energies. -/
theorem C81_low_tail_fails {T U V : ℝ} (hT : 0 < T) (hc : T < 0.1) (hU : 0 < U) (hU1 : U < 1) (hV : 0 < V) (hV1 : V < 1)
    (h1 : 2 < lnln U) (h2 : lnln U ≤ 2.05) (h3 : 1.98 ≤ lnln V) (h4 : lnln V < 2) :
    U < V ∧ ∃ e f : ℝ, sample 1 T (fun _ => U) [] = some (.ok [some e]) ∧ sample 1 T (fun _ => V) [] = some (.ok [some f]) ∧
      f < e := by
  have lU : Real.log U < 0 := Real.log_neg hU hU1
  have lV : Real.log V < 0 := Real.log_neg hV hV1
  have eU : -Real.log U = Real.exp (lnln U) := by unfold lnln; rw [Real.exp_log (by linarith)]
  have eV : -Real.log V = Real.exp (lnln V) := by unfold lnln; rw [Real.exp_log (by linarith)]
  refine ⟨?_, _, _, sample_one hc (invF_low (Or.inr h1)), sample_one hc (invF_table hV (by linarith) h4), ?_⟩
  · apply (Real.log_lt_log_iff hU hV).mp
    have := Real.exp_lt_exp.mpr (h4.trans h1)
    linarith
  · apply mul_lt_mul_of_pos_left _ hT
    -- the table value
    have b1 : line tableF ((lnln V + 19) * (999 / (2 + 19))) ≤ -4.62 := by
      have p := posF (by linarith : (-19 : ℝ) ≤ lnln V) h4
      have h := line_anti tableF_pair (x := 998) (by norm_num) (by linarith) p.2
      have e : line tableF 998 = (tableF.getD 998 0 : ℝ) / 10 ^ 21 := by
        unfold line
        rw [show ⌊(998 : ℝ)⌋₊ = 998 from by exact_mod_cast Nat.floor_natCast (R := ℝ) 998]
        norm_num
      have e2 : tableF.getD 998 0 = -4629879064442645742000 := by decide +kernel
      rw [e, e2] at h
      norm_num at h ⊢
      linarith
    have b2 : U ^ (2 / 3 : ℝ) = Real.exp (-Real.exp (lnln U) * (2 / 3)) := by
      rw [← eU, neg_neg, Real.rpow_def_of_pos hU]
    have b3 : Real.exp (lnln U) ≤ 7.78 := (Real.exp_le_exp.mpr h2).trans exp_2
    have b4 : (1.75 : ℝ) ≤ Real.sqrt Real.pi := by
      apply Real.le_sqrt_of_sq_le
      have := Real.pi_gt_three
      have : (3.14 : ℝ) < Real.pi := Real.pi_gt_d2
      norm_num
      linarith
    have b5 : Real.exp 0.57 ≤ 2 := by
      have := Real.exp_bound' (x := 0.57) (by norm_num) (by norm_num) (n := 3) (by norm_num)
      refine this.trans ?_
      norm_num [Finset.sum_range_succ, Nat.factorial]
    rw [b2]
    have b6 : Real.exp (line tableF ((lnln V + 19) * (999 / (2 + 19)))) ≤ Real.exp 0.57 * Real.exp (-Real.exp (lnln U) * (2 / 3)) := by
      rw [← Real.exp_add]
      apply Real.exp_le_exp.mpr
      linarith
    have b7 := Real.exp_pos (-Real.exp (lnln U) * (2 / 3))
    refine lt_of_le_of_lt b6 ?_
    apply mul_lt_mul_of_pos_right _ b7
    linarith

/-- The upper tail fails: the largest random numbers give one temperature, less than those before them. -/
theorem C81_high_tail_fails {T U V : ℝ} (hT : 0 < T) (hc : T < 0.1) (hU : 0 < U) (hU1 : U < 1) (hV : 0 < V) (hV1 : V < 1)
    (h1 : lnln U < -19) (h3 : -19 ≤ lnln V) (h4 : lnln V ≤ -1) :
    V < U ∧ ∃ e f : ℝ, sample 1 T (fun _ => U) [] = some (.ok [some e]) ∧ sample 1 T (fun _ => V) [] = some (.ok [some f]) ∧
      e < f := by
  have lU : Real.log U < 0 := Real.log_neg hU hU1
  have lV : Real.log V < 0 := Real.log_neg hV hV1
  have eU : -Real.log U = Real.exp (lnln U) := by unfold lnln; rw [Real.exp_log (by linarith)]
  have eV : -Real.log V = Real.exp (lnln V) := by unfold lnln; rw [Real.exp_log (by linarith)]
  refine ⟨?_, _, _, sample_one hc (invF_high hU.ne' h1), sample_one hc (invF_table hV h3 (by linarith)), ?_⟩
  · apply (Real.log_lt_log_iff hV hU).mp
    have := Real.exp_lt_exp.mpr (h1.trans_le h3)
    linarith
  · apply mul_lt_mul_of_pos_left _ hT
    have p := posF h3 (by linarith : lnln V < 2)
    have h := line_anti tableF_pair (y := 858) p.1 (by linarith) (by
      rw [show ⌊(858 : ℝ)⌋₊ = 858 from by exact_mod_cast Nat.floor_natCast (R := ℝ) 858, tableF_len]; norm_num)
    have e : line tableF 858 = (tableF.getD 858 0 : ℝ) / 10 ^ 21 := by
      unfold line
      rw [show ⌊(858 : ℝ)⌋₊ = 858 from by exact_mod_cast Nat.floor_natCast (R := ℝ) 858]
      norm_num
    have e2 : 0 < tableF.getD 858 0 := by decide +kernel
    have e3 : (0 : ℝ) < tableF.getD 858 0 := by exact_mod_cast e2
    have : 0 < line tableF 858 := by rw [e]; positivity
    exact Real.one_lt_exp_iff.mpr (by linarith)

/-! ### Relativistic case -/

theorem H0_neg {T : ℝ} (hT : 0 < T) : H0 T < 0 := by
  unfold H0
  have p : 0 < 1 / T := by positivity
  set x := 1 / T with hx
  have h := Real.sum_le_exp_of_nonneg p.le 4
  have e : ∑ i ∈ Finset.range 4, x ^ i / (i.factorial : ℝ) = 1 + x + x ^ 2 / 2 + x ^ 3 / 6 := by
    simp [Finset.sum_range_succ, Nat.factorial]
  rw [e] at h
  have q : 0 < x ^ 3 / 6 := by positivity
  have lt : 1 + x + 0.5 * x * x < Real.exp x := by
    have : 1 + x + 0.5 * x * x = 1 + x + x ^ 2 / 2 := by ring
    linarith
  have := (Real.log_lt_iff_lt_exp (by positivity)).mpr lt
  linarith

/-- How close to zero it is for hot species. -/
theorem H0_small {T : ℝ} (hT : 0 < T) : -H0 T ≤ (1 / T) ^ 3 / 4 := by
  unfold H0
  have p : 0 < 1 / T := by positivity
  set x := 1 / T with hx
  have h := Real.le_log_one_add_of_nonneg (x := x + 0.5 * x * x) (by positivity)
  have q : 0 < x + 0.5 * x * x + 2 := by positivity
  have : x - x ^ 3 / 4 ≤ 2 * (x + 0.5 * x * x) / (x + 0.5 * x * x + 2) := by
    rw [le_div_iff₀ q]
    have a : 0 ≤ x ^ 3 * x := by positivity
    have b : 0 ≤ x ^ 3 * (x * x) := by positivity
    nlinarith
  rw [← add_assoc] at h
  linarith

/-- Argument of the logarithm. -/
noncomputable def arg (T U : ℝ) : ℝ := -Real.log (1 - U) - H0 T

theorem arg_pos {T U : ℝ} (hT : 0 < T) (h0 : 0 ≤ U) (h1 : U < 1) : 0 < arg T U := by
  unfold arg
  have := H0_neg hT
  have := Real.log_nonpos (by linarith : 0 ≤ 1 - U) (by linarith)
  linarith

theorem posH {x : ℝ} (h1 : -26 ≤ x) (h2 : x < 12) :
    0 ≤ (x + 30) * (999 / (12 + 30)) ∧ ⌊(x + 30) * (999 / (12 + 30) : ℝ)⌋₊ + 1 < tableH.length := by
  have h : 0 ≤ (x + 30) * (999 / (12 + 30)) := by
    have : 0 ≤ x + 30 := by linarith
    positivity
  refine ⟨h, ?_⟩
  rw [tableH_len]
  have : (x + 30) * (999 / (12 + 30)) < (999 : ℕ) := by push_cast; linarith
  have := (Nat.floor_lt h).mpr this
  omega

/-- The guess for the Lorentz factor. -/
noncomputable def guess (T U : ℝ) : ℝ := T * Real.exp (line tableH ((Real.log (arg T U) + 30) * (999 / (12 + 30))))

/-- A random number within the table. -/
def InTable (T U : ℝ) : Prop := 0 ≤ U ∧ U < 1 ∧ -26 ≤ Real.log (arg T U) ∧ Real.log (arg T U) < 12

theorem invH_table {T U : ℝ} (hT : 0 < T) (h : InTable T U) :
    invH T U = .ok (some (Real.exp (line tableH ((Real.log (arg T U) + 30) * (999 / (12 + 30)))))) := by
  obtain ⟨a, b, c, d⟩ := h
  have p := arg_pos hT a b
  show (if arg T U < 0 then _ else if arg T U = 0 ∨ Real.log (arg T U) < -26 then _ else if 12 < Real.log (arg T U) then _
    else lookup tableH ((Real.log (arg T U) + 30) * (999 / (12 + 30))) >>= _) = _
  rw [if_neg (by linarith), if_neg (by rintro (h | h) <;> linarith), if_neg (by linarith), lookup_ok (posH c d).1 (posH c d).2]
  rfl

/-- The pair of random numbers from which an energy came: the guess belongs to the first, and the second is below the
velocity (in units of `c`) that goes with the guess — unless the guess is below one. -/
def Accepted (T e : ℝ) (p : ℝ × ℝ) : Prop :=
  e = guess T p.1 - 1 ∧ (guess T p.1 < 1 ∨ p.2 < Real.sqrt (1 - 1 / guess T p.1 ^ 2))

theorem again_iff {g W : ℝ} (hg : 0 < g) : again (some g) W = false → g < 1 ∨ W < Real.sqrt (1 - 1 / g ^ 2) := by
  intro h
  unfold again at h
  dsimp only at h
  rw [decide_eq_false_iff_not] at h
  rcases lt_or_ge g 1 with h1 | h1
  · exact Or.inl h1
  · right
    by_contra hn
    apply h
    refine ⟨hg.ne', ?_, ?_⟩
    · have : 1 / (g * g) ≤ 1 := by rw [div_le_one (by positivity)]; nlinarith
      linarith
    · rw [← pow_two]; exact not_lt.mp hn

theorem guess_pos {T U : ℝ} (hT : 0 < T) : 0 < guess T U := by
  unfold guess
  have := Real.exp_pos (line tableH ((Real.log (arg T U) + 30) * (999 / (12 + 30))))
  positivity

theorem relOne_ok {T : ℝ} (hT : 0 < T) (ws : List (ℝ × ℝ)) (hw : ∀ p ∈ ws, InTable T p.1) {r : Res (Option ℝ)} {l : List (ℝ × ℝ)}
    (h : relOne T ws = some (r, l)) : ∃ e : ℝ, r = .ok (some e) ∧ (∃ p ∈ ws, Accepted T e p) ∧ ∀ p ∈ l, p ∈ ws := by
  induction ws with
  | nil => simp [relOne] at h
  | cons p ws ih =>
    obtain ⟨U, W⟩ := p
    have hU := hw (U, W) List.mem_cons_self
    rw [relOne, invH_table hT hU] at h
    dsimp only [Option.map] at h
    change (if again (some (guess T U)) W then relOne T ws else some (Res.ok (some (guess T U - 1)), ws)) = _ at h
    by_cases hb : again (some (guess T U)) W = true
    · rw [if_pos hb] at h
      obtain ⟨e, e1, ⟨p, hp, hA⟩, e3⟩ := ih (fun x hx => hw x (List.mem_cons_of_mem _ hx)) h
      exact ⟨e, e1, ⟨p, List.mem_cons_of_mem _ hp, hA⟩, fun q hq => List.mem_cons_of_mem _ (e3 q hq)⟩
    · rw [if_neg hb] at h
      cases h
      refine ⟨_, rfl, ⟨(U, W), List.mem_cons_self, rfl, ?_⟩, fun q hq => List.mem_cons_of_mem _ hq⟩
      exact again_iff (guess_pos hT) (by simpa using hb)

/-- **C80**, partial (temperatures of `0.1` and more): whenever the sampling ends, on random numbers within the table,
there is one energy for each particle, it is a number above minus one, and it comes from a pair of random numbers that
the rejection rule accepts. -/
theorem C80_relativistic_partial {T : ℝ} (hT : 0.1 ≤ T) (n : Nat) (us : Nat → ℝ) (ws : List (ℝ × ℝ)) (hw : ∀ p ∈ ws, InTable T p.1)
    {r : Res (List (Option ℝ))} (h : sample n T us ws = some r) :
    ∃ es : List ℝ, r = .ok (es.map some) ∧ es.length = n ∧ ∀ e ∈ es, -1 < e ∧ ∃ p ∈ ws, Accepted T e p := by
  have hT0 : 0 < T := by linarith
  unfold sample at h
  rw [if_neg (not_lt.mpr hT)] at h
  induction n generalizing ws r with
  | zero =>
    rw [relativistic] at h
    cases h
    exact ⟨[], rfl, rfl, by simp⟩
  | succ n ih =>
    rw [relativistic] at h
    cases h1 : relOne T ws with
    | none => rw [h1] at h; simp at h
    | some x =>
      obtain ⟨r1, l⟩ := x
      obtain ⟨e, rfl, ⟨p, hp, hA⟩, hl⟩ := relOne_ok hT0 ws hw h1
      rw [h1] at h
      dsimp only at h
      cases h2 : relativistic T n l with
      | none => rw [h2] at h; simp at h
      | some r2 =>
        rw [h2] at h
        obtain ⟨es, e1, e2, e3⟩ := ih l (fun q hq => hw q (hl q hq)) h2
        rw [e1] at h
        simp only [Option.map_some, Res.ok_bind, Option.some.injEq] at h
        refine ⟨e :: es, h.symm, by simp [e2], ?_⟩
        intro x hx
        rcases List.mem_cons.mp hx with rfl | hx
        · exact ⟨by rw [hA.1]; linarith [guess_pos (U := p.1) hT0], p, hp, hA⟩
        · obtain ⟨a, q, hq, b⟩ := e3 x hx
          exact ⟨a, q, hl q hq, b⟩

/-- In particular no energy is negative if no guess is below one. -/
theorem C80_nonneg_partial {T : ℝ} (hT : 0.1 ≤ T) (n : Nat) (us : Nat → ℝ) (ws : List (ℝ × ℝ))
    (hw : ∀ p ∈ ws, InTable T p.1 ∧ 1 ≤ guess T p.1) {r : Res (List (Option ℝ))} (h : sample n T us ws = some r) :
    ∃ es : List ℝ, r = .ok (es.map some) ∧ es.length = n ∧ ∀ e ∈ es, 0 ≤ e := by
  obtain ⟨es, e1, e2, e3⟩ := C80_relativistic_partial hT n us ws (fun p hp => (hw p hp).1) h
  refine ⟨es, e1, e2, fun e he => ?_⟩
  obtain ⟨-, p, hp, hA, -⟩ := e3 e he
  rw [hA]
  linarith [(hw p hp).2]

theorem one_pair {T : ℝ} (hT : 0.1 ≤ T) {U W : ℝ} {g : Option ℝ} (h : invH T U = .ok g) (ha : again (g.map (T * ·)) W = false)
    (us : Nat → ℝ) (ws : List (ℝ × ℝ)) : sample 1 T us ((U, W) :: ws) = some (.ok [(g.map (T * ·)).map (· - 1)]) := by
  unfold sample
  rw [if_neg (not_lt.mpr hT), relativistic, relOne, h]
  dsimp only
  rw [if_neg (by simp [ha])]
  rfl

theorem arg_small {T U : ℝ} (hT : Real.exp 9 ≤ T) (h0 : 0 ≤ U) (h1 : U < 1) (h : -Real.log (1 - U) ≤ Real.exp (-27)) :
    Real.log (arg T U) < -26 := by
  have hT0 : 0 < T := (Real.exp_pos 9).trans_le hT
  have p := arg_pos hT0 h0 h1
  rw [Real.log_lt_iff_lt_exp p]
  have a := H0_small hT0
  have b : (1 / T) ^ 3 ≤ Real.exp (-27) := by
    have : 1 / T ≤ Real.exp (-9) := by
      rw [Real.exp_neg, ← one_div]
      exact one_div_le_one_div_of_le (Real.exp_pos 9) hT
    calc (1 / T) ^ 3 ≤ Real.exp (-9) ^ 3 := by gcongr
      _ = Real.exp (-27) := by rw [← Real.exp_nat_mul]; norm_num
  have c : Real.exp (-26) = Real.exp 1 * Real.exp (-27) := by rw [← Real.exp_add]; norm_num
  have d : (2 : ℝ) < Real.exp 1 := by linarith [Real.exp_one_gt_d9]
  have e := Real.exp_pos (-27)
  unfold arg
  rw [c]
  nlinarith

/-- Below the table the sampling fails.  For a species of `exp 9` (8103 eV) and more the random number zero gives the
energy minus one, whatever the other random number is. -/
theorem C80_zero_draw_fails {T : ℝ} (hT : Real.exp 9 ≤ T) (W : ℝ) (us : Nat → ℝ) (ws : List (ℝ × ℝ)) :
    sample 1 T us ((0, W) :: ws) = some (.ok [some (-1)]) := by
  have hT0 : 0 < T := (Real.exp_pos 9).trans_le hT
  have hT1 : 0.1 ≤ T := by
    have : (1 : ℝ) ≤ Real.exp 9 := Real.one_le_exp (by norm_num)
    linarith
  have p := arg_pos hT0 le_rfl (by norm_num : (0 : ℝ) < 1)
  have s := arg_small hT le_rfl (by norm_num : (0 : ℝ) < 1) (by simp [Real.exp_nonneg])
  have e : invH T 0 = .ok (some 0) := by
    show (if arg T 0 < 0 then _ else if arg T 0 = 0 ∨ Real.log (arg T 0) < -26 then _ else _) = _
    rw [if_neg (by linarith), if_pos (Or.inr s), if_pos rfl]
  have h := one_pair hT1 e (W := W) (by simp [again]) us ws
  rw [h]
  simp

/-- The smallest positive random numbers give an energy that is not a number. -/
theorem C80_small_draw_fails {T U : ℝ} (hT : Real.exp 9 ≤ T) (hU : 0 < U) (hU1 : U ≤ 1 - Real.exp (-Real.exp (-27))) (W : ℝ) (us : Nat → ℝ)
    (ws : List (ℝ × ℝ)) : sample 1 T us ((U, W) :: ws) = some (.ok [none]) := by
  have hT0 : 0 < T := (Real.exp_pos 9).trans_le hT
  have hT1 : 0.1 ≤ T := by
    have : (1 : ℝ) ≤ Real.exp 9 := Real.one_le_exp (by norm_num)
    linarith
  have hp := Real.exp_pos (-Real.exp (-27))
  have p := arg_pos hT0 hU.le (by linarith)
  have s := arg_small hT hU.le (by linarith) (by
    have : -Real.exp (-27) ≤ Real.log (1 - U) := by
      rw [Real.le_log_iff_exp_le (by linarith)]
      linarith
    linarith)
  have e : invH T U = .ok none := by
    show (if arg T U < 0 then _ else if arg T U = 0 ∨ Real.log (arg T U) < -26 then _ else _) = _
    rw [if_neg (by linarith), if_pos (Or.inr s), if_neg hU.ne']
  exact one_pair hT1 e (W := W) (by simp [again]) us ws

/-- **C81**, partial: within the table a larger random number gives at least as large an energy. -/
theorem C81_relativistic_partial {T U V W : ℝ} (hT : 0.1 ≤ T) (hU : InTable T U) (hV : InTable T V) (h : U ≤ V) (us : Nat → ℝ) {e f : ℝ}
    (he : sample 1 T us [(U, W)] = some (.ok [some e])) (hf : sample 1 T us [(V, W)] = some (.ok [some f])) : e ≤ f := by
  have hT0 : 0 < T := by linarith
  obtain ⟨es, e1, -, e3⟩ := C80_relativistic_partial hT 1 us [(U, W)] (by simpa using hU) he
  obtain ⟨fs, f1, -, f3⟩ := C80_relativistic_partial hT 1 us [(V, W)] (by simpa using hV) hf
  have e1' : es.map some = [some e] := (Res.ok.inj e1).symm
  have f1' : fs.map some = [some f] := (Res.ok.inj f1).symm
  have me : e ∈ es := by
    have : some e ∈ es.map some := by rw [e1']; simp
    obtain ⟨x, hx, hx'⟩ := List.mem_map.mp this
    cases hx'; exact hx
  have mf : f ∈ fs := by
    have : some f ∈ fs.map some := by rw [f1']; simp
    obtain ⟨x, hx, hx'⟩ := List.mem_map.mp this
    cases hx'; exact hx
  obtain ⟨-, p, hp, hA, -⟩ := e3 e me
  obtain ⟨-, q, hq, hB, -⟩ := f3 f mf
  rw [List.mem_singleton] at hp hq
  subst hp hq
  rw [hA, hB]
  dsimp only
  have : guess T U ≤ guess T V := by
    unfold guess
    apply mul_le_mul_of_nonneg_left _ hT0.le
    apply Real.exp_le_exp.mpr
    apply line_mono tableH_pair (posH hU.2.2.1 hU.2.2.2).1 _ (posH hV.2.2.1 hV.2.2.2).2
    have a : arg T U ≤ arg T V := by
      unfold arg
      have := Real.log_le_log (by linarith [hV.2.1] : 0 < 1 - V) (by linarith : 1 - V ≤ 1 - U)
      linarith
    have b := Real.log_le_log (arg_pos hT0 hU.1 hU.2.1) a
    have : Real.log (arg T U) + 30 ≤ Real.log (arg T V) + 30 := by linarith
    gcongr
  linarith

/-! ### The default start of a species -/

/-- **C78**, partial: the default distribution, from the random numbers to the velocities, for temperatures below
`0.1`.  There are as many particles as were sampled (`flat` and `random` placement). -/
theorem C78_start_partial {k : Cst} (G : k.Good) {T : ℝ} (hT : 0 ≤ T) (hc : T < 0.1) (hk : ratio k (21 * T) ^ 2 ≤ 2 * k.c ^ 2)
    (us : Nat → ℝ) (rs : List (ℝ × ℝ × ℝ)) (hu : ∀ i < rs.length, 0 ≤ us i ∧ us i < 1 ∧ lnln (us i) ≠ 2) (hr : ∀ r ∈ rs, InCube r) :
    ∃ es, sample rs.length T us [] = some (.ok es) ∧
    ∃ vs : List (Vec3 ℝ), thermal k es rs = .ok (vs.map some) ∧ vs.length = rs.length ∧ ∀ v ∈ vs, v.length2 < k.c ^ 2 := by
  obtain ⟨es, e1, e2, e3⟩ := C80_classical_partial hT hc rs.length us [] hu
  refine ⟨_, e1, C78_thermal_partial G es ?_ rs hr e2.ge⟩
  intro e he
  obtain ⟨a, b⟩ := e3 e he
  refine ⟨a, le_trans ?_ hk⟩
  have : ratio k e ≤ ratio k (21 * T) := by
    have := G.mass; have := G.q; have := G.c
    unfold ratio
    gcongr
  have := ratio_nonneg G a
  gcongr

/-- A hot species may start with velocities that are not numbers: the random number zero. -/
theorem C78_start_fails {k : Cst} (G : k.Good) {T : ℝ} (hT : Real.exp 9 ≤ T) (W : ℝ) (us : Nat → ℝ) (r : ℝ × ℝ × ℝ) :
    ∃ es, sample 1 T us [(0, W)] = some (.ok es) ∧ thermal k es [r] = .ok [none] :=
  ⟨_, C80_zero_draw_fails hT W us [], C78_negative_energy_fails G (by norm_num) r⟩

/-! ### Concrete cases -/

theorem ex_lnln (x : ℝ) : lnln (Real.exp (-Real.exp x)) = x := by unfold lnln; rw [Real.log_exp, neg_neg, Real.log_exp]
theorem ex_unit (x : ℝ) : 0 < Real.exp (-Real.exp x) ∧ Real.exp (-Real.exp x) < 1 :=
  ⟨Real.exp_pos _, by rw [Real.exp_lt_one_iff]; simp [Real.exp_pos]⟩

example := C80_classical_partial (T := 0.05) (by norm_num) (by norm_num) 3 (fun _ => Real.exp (-Real.exp 1)) []
  (fun i _ => ⟨(ex_unit 1).1.le, (ex_unit 1).2, by rw [ex_lnln]; norm_num⟩)
example := C80_table_end_fails (T := 0.05) (by norm_num) 3 (fun _ => Real.exp (-Real.exp 2)) [] rfl
example := C81_classical_partial (T := 0.05) (U := Real.exp (-Real.exp 1)) (V := Real.exp (-Real.exp 0)) (by norm_num) (by norm_num)
  (ex_unit 1).1 (Real.exp_le_exp.mpr (neg_le_neg (Real.exp_le_exp.mpr (by norm_num)))) (ex_unit 0).2
  (by rw [ex_lnln]; norm_num) (by rw [ex_lnln]; norm_num)
example := C81_low_tail_fails (T := 0.05) (U := Real.exp (-Real.exp 2.01)) (V := Real.exp (-Real.exp 1.99)) (by norm_num) (by norm_num)
  (ex_unit _).1 (ex_unit _).2 (ex_unit _).1 (ex_unit _).2 (by rw [ex_lnln]; norm_num) (by rw [ex_lnln]; norm_num)
  (by rw [ex_lnln]; norm_num) (by rw [ex_lnln]; norm_num)
example := C81_high_tail_fails (T := 0.05) (U := Real.exp (-Real.exp (-20))) (V := Real.exp (-Real.exp (-18))) (by norm_num) (by norm_num)
  (ex_unit _).1 (ex_unit _).2 (ex_unit _).1 (ex_unit _).2 (by rw [ex_lnln]; norm_num) (by rw [ex_lnln]; norm_num)
  (by rw [ex_lnln]; norm_num)

/-- A temperature of one and a random number in the table. -/
theorem ex_in : InTable 1 (1 - Real.exp (-1)) := by
  have e1 := Real.exp_pos (-1)
  have e2 : Real.exp (-1) < 1 := by rw [Real.exp_lt_one_iff]; norm_num
  have a : arg 1 (1 - Real.exp (-1)) = 1 - H0 1 := by
    unfold arg
    rw [show 1 - (1 - Real.exp (-1)) = Real.exp (-1) by ring, Real.log_exp]
    ring
  have h1 := H0_neg (T := 1) (by norm_num)
  have h2 := H0_small (T := 1) (by norm_num)
  refine ⟨by linarith, by linarith, ?_, ?_⟩
  · rw [a]
    have := Real.log_nonneg (by linarith : 1 ≤ 1 - H0 1)
    linarith
  · rw [a]
    have := Real.log_le_sub_one_of_pos (by linarith : 0 < 1 - H0 1)
    norm_num at h2
    linarith

/-- Its guess is above one, so it is accepted with the second random number zero. -/
theorem ex_guess : 1 < guess 1 (1 - Real.exp (-1)) := by
  have e1 := Real.exp_pos (-1)
  have a : arg 1 (1 - Real.exp (-1)) = 1 - H0 1 := by
    unfold arg
    rw [show 1 - (1 - Real.exp (-1)) = Real.exp (-1) by ring, Real.log_exp]
    ring
  have h1 := H0_neg (T := 1) (by norm_num)
  have l := Real.log_nonneg (by linarith : 1 ≤ 1 - H0 1)
  obtain ⟨-, -, c, d⟩ := ex_in
  have h := line_mono tableH_pair (x := 713) (by norm_num) (y := (Real.log (arg 1 (1 - Real.exp (-1))) + 30) * (999 / (12 + 30)))
    (by rw [a]; linarith) (posH c d).2
  have e : line tableH 713 = (tableH.getD 713 0 : ℝ) / 10 ^ 21 := by
    unfold line
    rw [show ⌊(713 : ℝ)⌋₊ = 713 from by exact_mod_cast Nat.floor_natCast (R := ℝ) 713]
    norm_num
  have e2 : 0 < tableH.getD 713 0 := by decide +kernel
  have e3 : (0 : ℝ) < tableH.getD 713 0 := by exact_mod_cast e2
  have : 0 < line tableH 713 := by rw [e]; positivity
  unfold guess
  rw [one_mul]
  exact Real.one_lt_exp_iff.mpr (by linarith)

theorem ex_sample (us : Nat → ℝ) : sample 1 1 us [(1 - Real.exp (-1), 0)] = some (.ok [some (guess 1 (1 - Real.exp (-1)) - 1)]) := by
  have g := ex_guess
  have h := one_pair (T := 1) (by norm_num) (invH_table (by norm_num) ex_in) (W := 0) (by
    show again (some (guess 1 (1 - Real.exp (-1)))) 0 = false
    unfold again
    dsimp only
    rw [decide_eq_false_iff_not]
    rintro ⟨-, h2, h3⟩
    set x := guess 1 (1 - Real.exp (-1))
    have p : 0 < 1 - 1 / (x * x) := by
      have : 1 / (x * x) < 1 := by rw [div_lt_one (by positivity)]; nlinarith
      linarith
    have := Real.sqrt_pos.mpr p
    linarith) us []
  rw [h]
  rfl

example (us) := C80_relativistic_partial (T := 1) (by norm_num) 1 us [(1 - Real.exp (-1), 0)] (by simpa using ex_in) (ex_sample us)
example (us) := C80_nonneg_partial (T := 1) (by norm_num) 1 us [(1 - Real.exp (-1), 0)]
  (by simpa using ⟨ex_in, ex_guess.le⟩) (ex_sample us)
example (us) := C81_relativistic_partial (T := 1) (by norm_num) ex_in ex_in le_rfl us (ex_sample us) (ex_sample us)
example := C80_small_draw_fails (T := Real.exp 10) (U := 1 - Real.exp (-Real.exp (-27))) (Real.exp_le_exp.mpr (by norm_num))
  (by have := (ex_unit (-27)).2; linarith) le_rfl 0.5 (fun _ => 0) []
example := C80_zero_draw_fails (T := Real.exp 10) (Real.exp_le_exp.mpr (by norm_num)) 0.5 (fun _ => 0) []
example := C78_start_fails electron_good (T := Real.exp 10) (Real.exp_le_exp.mpr (by norm_num)) 0.5 (fun _ => 0) (0, 0, 0)
example := C78_start_partial electron_good (T := 0.05) (by norm_num) (by norm_num) (by norm_num [ratio, electron])
  (fun _ => Real.exp (-Real.exp 1)) [(1/2, -1, 1/3)] (fun i _ => ⟨(ex_unit 1).1.le, (ex_unit 1).2, by rw [ex_lnln]; norm_num⟩)
  (by simp [InCube, abs_of_pos, abs_of_neg]; norm_num [abs_of_pos])

end Vel
end Pico
