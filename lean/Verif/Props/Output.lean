import Verif.Model.Output
import Verif.Lemmas.Base
import Mathlib.Tactic.Linarith
import Mathlib.Tactic.Ring
import Mathlib.Tactic.FieldSimp
import Mathlib.Tactic.Positivity
import Mathlib.Tactic.NormNum

/-!
# Number of steps of a run and frames of the output  (C42, C43)
-/

set_option linter.unusedSimpArgs false
set_option linter.unusedVariables false
set_option linter.unusedSectionVars false

namespace Pico
namespace Out

variable {K : Type _} [Field K] [LinearOrder K] [IsStrictOrderedRing K] [FloorRing K]

/-! ### C43, C75: number of steps -/

theorem mainLoop_ends (t : Time K) (hs : 0 < t.step) (m : Nat) :
    ∀ (c : K) (k : Nat), t.stop < c + m * t.step → (∀ j < m, c + j * t.step ≤ t.stop) →
      MainLoop ({ t with current := c }, k) ({ t with current := c + m * t.step }, k + m) := by
  induction m with
  | zero =>
    intro c k h _
    have := While.done (cond := fun s : Time K × Nat => decide (s.1.current ≤ s.1.stop))
      (body := fun s => ({ s.1 with current := s.1.current + s.1.step }, s.2 + 1)) (s := ({ t with current := c }, k))
      (by simpa using h)
    simpa [MainLoop] using this
  | succ m ih =>
    intro c k h hl
    have h0 : c ≤ t.stop := by simpa using hl 0 (Nat.succ_pos m)
    refine While.step (by simpa using h0) ?_
    have := ih (c + t.step) (k + 1) (by push_cast at h; linarith) (fun j hj => by
      have := hl (j + 1) (by omega)
      push_cast at this
      linarith)
    have e1 : c + t.step + m * t.step = c + ((m + 1 : Nat) : K) * t.step := by push_cast; ring
    have e2 : k + 1 + m = k + (m + 1) := by omega
    rw [e1, e2] at this
    exact this

theorem while_unique {σ : Type _} {cond : σ → Bool} {body : σ → σ} {s t u : σ}
    (h : While cond body s t) (h' : While cond body s u) : t = u := by
  induction h with
  | done hc =>
    cases h' with
    | done _ => rfl
    | step hc' _ => rw [hc] at hc'; cases hc'
  | step hc _ ih =>
    cases h' with
    | done hc' => rw [hc'] at hc; cases hc
    | step _ h2 => exact ih h2

/-- **C43.**  For every positive time step the main loop ends, and it has then executed exactly
`floor (end / step) + 1` steps (none if `end` is negative). -/
theorem C43_steps (start stop step : K) (hs : 0 < step) :
    ∃ u, MainLoop (initTime start stop step, 0) u ∧
      (∀ u', MainLoop (initTime start stop step, 0) u' → u' = u) ∧
      (u.2 : Int) = max 0 (⌊stop / step⌋ + 1) ∧ u.1.current = u.2 * step := by
  let m : Nat := (⌊stop / step⌋ + 1).toNat
  have hm : (m : Int) = max 0 (⌊stop / step⌋ + 1) := by
    simp only [m, Int.toNat_eq_max]; omega
  have h1 : stop < 0 + (m : K) * step := by
    have : stop / step < m := by
      have h2 := Int.lt_floor_add_one (stop / step)
      have h3 : (⌊stop / step⌋ + 1 : Int) ≤ (m : Int) := by rw [hm]; exact le_max_right _ _
      have h4 : ((⌊stop / step⌋ + 1 : Int) : K) ≤ ((m : Int) : K) := by exact_mod_cast h3
      push_cast at h4
      linarith
    rw [div_lt_iff₀ hs] at this
    linarith
  have h2 : ∀ j < m, 0 + (j : K) * step ≤ stop := by
    intro j hj
    have h3 : (j : Int) ≤ ⌊stop / step⌋ := by
      have : (j : Int) < m := by exact_mod_cast hj
      rw [hm] at this
      rcases le_total 0 (⌊stop / step⌋ + 1) with h | h
      · rw [max_eq_right h] at this; omega
      · rw [max_eq_left h] at this; omega
    have h4 : ((j : Int) : K) ≤ stop / step := Int.le_floor.mp h3
    rw [le_div_iff₀ hs] at h4
    simpa using h4
  have hrun := mainLoop_ends (initTime start stop step) hs m 0 0 h1 h2
  refine ⟨_, hrun, fun u' hu' => while_unique hu' hrun, ?_, ?_⟩
  · simpa using hm
  · simp [initTime]

/-- Where C75 fails: a step that is not positive is accepted by the configuration, and then the loop never ends. -/
theorem C75_step_fails (start stop step : K) (hs : step ≤ 0) (he : 0 ≤ stop) :
    ¬ ∃ u, MainLoop (initTime start stop step, 0) u := by
  rintro ⟨u, hu⟩
  have key : ∀ s u : Time K × Nat, MainLoop s u → s.1.step ≤ 0 → s.1.current ≤ s.1.stop → False := by
    intro s u h
    induction h with
    | done hc => intro _ h2; simp [h2] at hc
    | step hc _ ih => exact fun h1 h2 => ih h1 (by simp only; linarith)
  exact key _ _ hu hs he

/-- Where C75 fails: the configured start of the interval has no effect; a run over `[start, stop]` with
`step ≤ start` executes more steps than the interval has. -/
theorem C75_start_fails (start stop step : K) (hs : 0 < step) (h1 : step ≤ start) (h2 : start ≤ stop) :
    ∃ u, MainLoop (initTime start stop step, 0) u ∧ ⌊(stop - start) / step⌋ + 1 < (u.2 : Int) := by
  obtain ⟨u, hu, _, hn, _⟩ := C43_steps start stop step hs
  refine ⟨u, hu, ?_⟩
  rw [hn]
  refine lt_of_lt_of_le ?_ (le_max_right _ _)
  have h3 : (stop - start) / step ≤ stop / step - 1 := by
    rw [div_le_iff₀ hs, sub_mul, div_mul_cancel₀ _ hs.ne']
    linarith
  have h4 : ⌊(stop - start) / step⌋ ≤ ⌊stop / step - 1⌋ := Int.floor_le_floor h3
  rw [Int.floor_sub_one] at h4
  omega

example : ∃ u, MainLoop (initTime (0 : ℚ) 1 (1 / 4), 0) u ∧ u.2 = 5 := by
  obtain ⟨u, hu, _, hn, _⟩ := C43_steps (0 : ℚ) 1 (1 / 4) (by norm_num)
  refine ⟨u, hu, ?_⟩
  have : ⌊(1 : ℚ) / (1 / 4)⌋ = 4 := by decide +kernel
  rw [this] at hn
  have : max 0 ((4 : Int) + 1) = 5 := by decide
  rw [this] at hn
  exact_mod_cast hn

/-! ### C42: frames -/

/-- The writes a user expects of `N` steps: frame `k` at step `k * schedule`, once by every domain, in order. -/
def expected (schedule doms frames : Nat) : List (Int × Nat × Nat) :=
  (List.range frames).flatMap fun (k : Nat) => (List.range doms).map fun (d : Nat) => (((k * schedule : Nat) : Int), d, k)

/-- Number of multiples of `s` below `N`. -/
def frameCount (s N : Nat) : Nat := (N + s - 1) / s

theorem frameCount_succ_hit (s N : Nat) (hs : 0 < s) (h : N % s = 0) :
    frameCount s N = N / s ∧ frameCount s (N + 1) = N / s + 1 := by
  obtain ⟨q, rfl⟩ := Nat.dvd_of_mod_eq_zero h
  unfold frameCount
  rw [Nat.mul_div_cancel_left _ hs]
  constructor
  · have : s * q + s - 1 = s * q + (s - 1) := by omega
    rw [this, Nat.mul_add_div hs, Nat.div_eq_of_lt (show s - 1 < s by omega), Nat.add_zero]
  · have : s * q + 1 + s - 1 = s * (q + 1) := by rw [Nat.mul_add]; omega
    rw [this, Nat.mul_div_cancel_left _ hs]

theorem frameCount_succ_miss (s N : Nat) (hs : 0 < s) (h : N % s ≠ 0) : frameCount s (N + 1) = frameCount s N := by
  unfold frameCount
  have h1 := Nat.div_add_mod N s
  have h2 := Nat.mod_lt N hs
  have e : N + 1 + s - 1 = s * (N / s + 1) + N % s := by rw [Nat.mul_add]; omega
  have e' : N + s - 1 = s * (N / s + 1) + (N % s - 1) := by rw [Nat.mul_add]; omega
  have h3 : N % s / s = 0 := Nat.div_eq_of_lt h2
  have h4 : (N % s - 1) / s = 0 := Nat.div_eq_of_lt (by omega)
  rw [e, e', Nat.mul_add_div hs, Nat.mul_add_div hs, h3, h4]

theorem stepNo_exact (step : K) (hs : 0 < step) (N : Nat) (hN : N < 2 ^ 31) :
    stepNo id ((N : K) * step) step = .ok N := by
  unfold stepNo
  rw [if_neg hs.ne']
  have : ⌈id ((N : K) * step / step)⌉ = (N : Int) := by
    rw [id, mul_div_assoc, div_self hs.ne', mul_one]
    exact Int.ceil_natCast N
  simp only [this]
  rw [if_pos]
  constructor <;> omega

theorem loop_writers (s : Nat) (hs : 0 < s) (hs' : s < 2 ^ 16) (n k rows : Nat) (hk : n % s = 0) (hk' : n / s = k)
    (hr : k < rows) (l : List Nat) :
    ∀ lg, loop (writer s n) l ⟨rows, lg⟩ = .ok ⟨rows, lg ++ l.map fun d => ((n : Int), d, k)⟩ := by
  induction l with
  | nil => intro lg; simp [loop]
  | cons d l ih =>
    intro lg
    have hw : writer s n d ⟨rows, lg⟩ = .ok ⟨rows, lg ++ [((n : Int), d, k)]⟩ := by
      unfold writer frame
      rw [Nat.mod_eq_of_lt hs', if_neg (by omega)]
      simp [hk, hk', DS.write, hr]
    rw [loop, hw, Res.ok_bind, ih]
    simp

theorem loop_writers_none (s : Nat) (hs : 0 < s) (hs' : s < 2 ^ 16) (n : Nat) (hk : n % s ≠ 0) (l : List Nat) (d : DS) :
    loop (writer s n) l d = .ok d := by
  induction l with
  | nil => rfl
  | cons x l ih =>
    have hw : writer s n x d = .ok d := by
      unfold writer frame
      rw [Nat.mod_eq_of_lt hs', if_neg (by omega)]
      simp [hk]
    rw [loop, hw, Res.ok_bind, ih]

theorem loop_range_succ {σ : Type _} (f : Nat → σ → Res σ) (N : Nat) (s : σ) :
    loop f (List.range (N + 1)) s = (loop f (List.range N) s >>= f N) := by
  rw [List.range_succ]
  generalize List.range N = l
  induction l generalizing s with
  | nil => simp [loop]; cases f N s <;> rfl
  | cons a l ih =>
    rw [List.cons_append, loop, loop]
    cases h : f a s with
    | ok x => simp [ih]
    | fatal => rfl
    | ub => rfl

/-- **C42 (partial).**  Exact arithmetic, a schedule between 1 and 65535 and at most `2^31` steps: after `N` steps no
write was refused, the dataset has room for exactly the frames written, and the writes were frame 0, 1, 2, … in this
order, frame `k` at step `k * schedule`, each exactly once by each of the contributing domains.
Missing: rounding of the clock and larger schedules, see the theorems below. -/
theorem C42_partial (step : K) (hs : 0 < step) (schedule doms N : Nat) (h1 : 1 ≤ schedule) (h2 : schedule < 65536)
    (hN : N ≤ 2 ^ 31) :
    run id step schedule doms N =
      .ok ((N : K) * step, ⟨max 1 (frameCount schedule N), expected schedule doms (frameCount schedule N)⟩) := by
  induction N with
  | zero =>
    have : frameCount schedule 0 = 0 := by unfold frameCount; exact Nat.div_eq_of_lt (by omega)
    simp [run, loop, this, expected, DS.init]
  | succ N ih =>
    have ih := ih (by omega)
    unfold run at ih ⊢
    rw [loop_range_succ, ih, Res.ok_bind]
    unfold turn
    simp only
    rw [stepNo_exact step hs N (by omega), Res.ok_bind]
    unfold output initDataset frame
    rw [if_neg (by omega), Res.ok_bind]
    have et : (N : K) * step + step = ((N + 1 : Nat) : K) * step := by push_cast; ring
    by_cases hm : N % schedule = 0
    · obtain ⟨c1, c2⟩ := frameCount_succ_hit schedule N (by omega) hm
      simp only [Int.toNat_natCast, hm, if_true, Res.ok_bind, id]
      have hx : (DS.extend ⟨max 1 (frameCount schedule N), expected schedule doms (frameCount schedule N)⟩ (N / schedule)) =
          ⟨max 1 (frameCount schedule (N + 1)), expected schedule doms (frameCount schedule N)⟩ := by
        rw [c1, c2]
        unfold DS.extend
        by_cases h0 : N / schedule = 0
        · simp [h0]
        · simp only
          rw [if_neg (by omega)]
          have : max 1 (N / schedule + 1) = N / schedule + 1 := by omega
          rw [this]
      rw [hx, loop_writers schedule (by omega) h2 N (N / schedule) _ hm rfl (by rw [c2]; omega), Res.ok_bind, et, c2]
      congr 3
      rw [c1]
      unfold expected
      rw [List.range_succ, List.flatMap_append]
      simp only [List.flatMap_cons, List.flatMap_nil, List.append_nil]
      have : N / schedule * schedule = N := Nat.div_mul_cancel (Nat.dvd_of_mod_eq_zero hm)
      rw [this]
    · simp only [Int.toNat_natCast, hm, if_false, Res.ok_bind, id]
      rw [loop_writers_none schedule (by omega) h2 N hm, Res.ok_bind, et,
        frameCount_succ_miss schedule N (by omega) hm]

theorem mem_expected {schedule doms frames : Nat} {n : Int} {d k : Nat} :
    (n, d, k) ∈ expected schedule doms frames ↔ k < frames ∧ d < doms ∧ n = ((k * schedule : Nat) : Int) := by
  simp only [expected, List.mem_flatMap, List.mem_range, List.mem_map, Prod.mk.injEq]
  constructor
  · rintro ⟨a, ha, b, hb, h1, h2, h3⟩
    subst h2 h3
    exact ⟨ha, hb, h1.symm⟩
  · rintro ⟨h1, h2, h3⟩
    exact ⟨k, h1, d, h2, h3.symm, rfl, rfl⟩

theorem nodup_expected (schedule doms frames : Nat) : (expected schedule doms frames).Nodup := by
  unfold expected
  rw [List.nodup_flatMap]
  refine ⟨fun k _ => List.nodup_range.map ?_, List.nodup_range.pairwise_of_forall_ne ?_⟩
  · intro a b h
    simpa using h
  · intro a _ b _ hab x hx hy
    obtain ⟨_, _, rfl⟩ := List.mem_map.mp hx
    obtain ⟨_, _, h⟩ := List.mem_map.mp hy
    simp only [Prod.mk.injEq] at h
    exact hab h.2.2.symm

/-- **C42 (partial), as seen in the file.**  Under the same conditions: frame `k` of domain `d` was written exactly once
if the step `k * schedule` was executed, and otherwise not at all; and every written frame lies in the dataset. -/
theorem C42_frames_partial (step : K) (hs : 0 < step) (schedule doms N : Nat) (h1 : 1 ≤ schedule)
    (h2 : schedule < 65536) (hN : N ≤ 2 ^ 31) :
    ∃ c ds, run id step schedule doms N = .ok (c, ds) ∧ ds.log.Nodup ∧
      (∀ n d k, (n, d, k) ∈ ds.log ↔ k * schedule < N ∧ d < doms ∧ n = ((k * schedule : Nat) : Int)) ∧
      (∀ n d k, (n, d, k) ∈ ds.log → k < ds.rows) ∧ ds.log.Pairwise (fun a b => a.2.2 ≤ b.2.2) := by
  refine ⟨_, _, C42_partial step hs schedule doms N h1 h2 hN, nodup_expected _ _ _, ?_, ?_, ?_⟩
  · intro n d k
    rw [mem_expected]
    have : k < frameCount schedule N ↔ k * schedule < N := by
      unfold frameCount
      rw [Nat.lt_div_iff_mul_lt (by omega)]
      have := Nat.mul_comm k schedule
      omega
    rw [this]
  · intro n d k h
    have := (mem_expected.mp h).1
    simp only
    omega
  · simp only
    unfold expected
    rw [List.pairwise_flatMap]
    constructor
    · intro k _
      rw [List.pairwise_map]
      exact List.pairwise_of_forall (fun _ _ => le_refl _)
    · refine List.pairwise_lt_range.imp ?_
      intro a b hab x hx y hy
      obtain ⟨_, _, rfl⟩ := List.mem_map.mp hx
      obtain ⟨_, _, rfl⟩ := List.mem_map.mp hy
      exact le_of_lt hab

/-- Where C42 fails: a schedule of 0 is accepted, and the first step divides by zero. -/
theorem C42_zero_fails (step : K) (hs : 0 < step) (doms N : Nat) : run id step 0 doms (N + 1) = .ub := by
  have h0 : stepNo id (0 : K) step = .ok 0 := by simpa using stepNo_exact step hs 0 (by norm_num)
  unfold run
  rw [List.range_succ_eq_map, loop]
  unfold turn
  simp only [h0, Res.ok_bind, output, initDataset, frame, if_true, Res.ub_bind]

/-- Where C42 fails: the schedule is an `unsigned int` when the dataset is extended and an `unsigned short` when it is
written.  For a multiple of 65536 the first step divides by zero. -/
theorem C42_short_zero_fails (step : K) (hs : 0 < step) (schedule doms N : Nat) (hd : 0 < doms)
    (h0 : 0 < schedule) (h : schedule % 65536 = 0) : run id step schedule doms (N + 1) = .ub := by
  have hz : stepNo id (0 : K) step = .ok 0 := by simpa using stepNo_exact step hs 0 (by norm_num)
  obtain ⟨d, rfl⟩ : ∃ d, doms = d + 1 := ⟨doms - 1, by omega⟩
  unfold run
  rw [List.range_succ_eq_map, loop]
  unfold turn
  have hf : frame schedule 0 = .ok (some 0) := by unfold frame; rw [if_neg (by omega)]; simp
  simp only [hz, Res.ok_bind, output, initDataset, hf]
  rw [List.range_succ_eq_map, loop]
  have hw : ∀ x, writer schedule 0 0 x = .ub := by
    intro x
    unfold writer frame
    rw [if_pos (by simpa using h)]
    rfl
  rw [hw]
  rfl

/-- Where C42 fails: for any other schedule from 65536 up the writer uses a smaller one than the dataset is extended
with, and at step `schedule % 65536` it writes outside of the dataset: the run aborts. -/
theorem C42_short_fails (step : K) (hs : 0 < step) (schedule doms N : Nat) (hd : 0 < doms)
    (hb : 65536 ≤ schedule) (h : schedule % 65536 ≠ 0) (hN : schedule % 65536 < N) :
    run id step schedule doms N = .fatal := by
  generalize ht : schedule % 65536 = t at h hN
  have ht' : t < 65536 := by rw [← ht]; exact Nat.mod_lt _ (by norm_num)
  -- until step `t` only frame 0 is written
  have hfirst : ∀ M, M < t → ∃ lg, run id step schedule doms (M + 1) = .ok (((M + 1 : Nat) : K) * step, ⟨1, lg⟩) := by
    intro M
    induction M with
    | zero =>
      intro _
      have hz : stepNo id (0 : K) step = .ok 0 := by simpa using stepNo_exact step hs 0 (by norm_num)
      have hf : frame schedule 0 = .ok (some 0) := by unfold frame; rw [if_neg (by omega)]; simp
      have hw : ∀ (l : List Nat) lg, ∃ lg', loop (writer schedule 0) l ⟨1, lg⟩ = .ok ⟨1, lg'⟩ := by
        intro l
        induction l with
        | nil => intro lg; exact ⟨lg, rfl⟩
        | cons x l ih =>
          intro lg
          have hx : writer schedule 0 x ⟨1, lg⟩ = .ok ⟨1, lg ++ [(0, x, 0)]⟩ := by
            unfold writer frame
            rw [if_neg (by show ¬ schedule % 2 ^ 16 = 0; omega)]
            simp [DS.write]
          obtain ⟨lg', h'⟩ := ih (lg ++ [(0, x, 0)])
          exact ⟨lg', by rw [loop, hx, Res.ok_bind, h']⟩
      obtain ⟨lg, hlg⟩ := hw (List.range doms) []
      refine ⟨lg, ?_⟩
      unfold run
      rw [loop_range_succ]
      simp only [List.range_zero, loop, Res.ok_bind, turn, hz, output, initDataset, hf]
      have : DS.extend DS.init 0 = ⟨1, []⟩ := by simp [DS.extend, DS.init]
      rw [this, hlg]
      simp
    | succ M ih =>
      intro hM
      obtain ⟨lg, hlg⟩ := ih (by omega)
      refine ⟨lg, ?_⟩
      unfold run at hlg ⊢
      rw [loop_range_succ, hlg, Res.ok_bind]
      unfold turn
      simp only
      rw [stepNo_exact step hs (M + 1) (by omega), Res.ok_bind]
      have hf : frame schedule ((M + 1 : Nat) : Int) = .ok none := by
        unfold frame
        rw [if_neg (by omega), Int.toNat_natCast, if_neg (by rw [Nat.mod_eq_of_lt (by omega)]; omega)]
      have hw : ∀ (l : List Nat) d, loop (writer schedule ((M + 1 : Nat) : Int)) l d = .ok d := by
        intro l d
        induction l with
        | nil => rfl
        | cons x l ih =>
          have hx : writer schedule ((M + 1 : Nat) : Int) x d = .ok d := by
            unfold writer frame
            have e : schedule % 2 ^ 16 = t := ht
            rw [e, if_neg h, Int.toNat_natCast, if_neg (by rw [Nat.mod_eq_of_lt (by omega)]; omega)]
            rfl
          rw [loop, hx, Res.ok_bind, ih]
      simp only [output, initDataset, hf, Res.ok_bind, hw, id]
      congr 2
      push_cast
      ring
  obtain ⟨lg, hlg⟩ := hfirst (t - 1) (by omega)
  have e1 : t - 1 + 1 = t := by omega
  rw [e1] at hlg
  have hstep : run id step schedule doms (t + 1) = .fatal := by
    unfold run at hlg ⊢
    rw [loop_range_succ, hlg, Res.ok_bind]
    unfold turn
    simp only
    rw [stepNo_exact step hs t (by omega), Res.ok_bind]
    have hf : frame schedule ((t : Nat) : Int) = .ok none := by
      unfold frame
      rw [if_neg (by omega), Int.toNat_natCast, if_neg (by rw [Nat.mod_eq_of_lt (by omega)]; omega)]
    obtain ⟨d, rfl⟩ : ∃ d, doms = d + 1 := ⟨doms - 1, by omega⟩
    have hx : writer schedule ((t : Nat) : Int) 0 ⟨1, lg⟩ = .fatal := by
      unfold writer frame
      have e : schedule % 2 ^ 16 = t := ht
      rw [e, if_neg h, Int.toNat_natCast, Nat.mod_self, if_pos rfl, Res.ok_bind]
      simp only
      unfold DS.write
      rw [if_neg]
      rw [Nat.div_self (by omega)]
      simp
    simp only [output, initDataset, hf, Res.ok_bind]
    rw [List.range_succ_eq_map, loop, hx]
    rfl
  -- an aborted run stays aborted
  obtain ⟨m, rfl⟩ : ∃ m, N = t + 1 + m := ⟨N - (t + 1), by omega⟩
  clear hN
  induction m with
  | zero => exact hstep
  | succ m ih =>
    unfold run at ih ⊢
    rw [← Nat.add_assoc, loop_range_succ, ih]
    rfl

/-- Where C42 fails: if the clock is late by any amount (up to a step), the step counts as the next one. -/
theorem C42_late_clock_fails (step c : K) (hs : 0 < step) (n : Nat) (hn : n + 1 < 2 ^ 31) (h1 : n * step < c)
    (h2 : c ≤ (n + 1) * step) : stepNo id c step = .ok ((n : Int) + 1) := by
  unfold stepNo
  rw [if_neg hs.ne']
  have : ⌈id (c / step)⌉ = (n : Int) + 1 := by
    rw [id, Int.ceil_eq_iff]
    push_cast
    constructor
    · rw [lt_div_iff₀ hs]; linarith
    · rw [div_le_iff₀ hs]; linarith
  simp only [this]
  rw [if_pos]
  constructor <;> omega

/-- Where C42 fails: with the rounding of `double`, a time step of 0.1 and a frame at every step, frame 3 is never
written and frame 4 is written twice (by every domain; here one). -/
theorem C42_rounding_fails :
    run round64 tenth 1 1 6 = .ok (5404319552844595 / 9007199254740992,
      ⟨6, [(0, 0, 0), (1, 0, 1), (2, 0, 2), (4, 0, 4), (4, 0, 4), (5, 0, 5)]⟩) ∧ round64 (1 / 10) = tenth := by
  constructor <;> decide +kernel

example : run id (1 / 4 : ℚ) 2 2 4 = .ok (1, ⟨2, [(0, 0, 0), (0, 1, 0), (2, 0, 1), (2, 1, 1)]⟩) := by
  have := C42_partial (1 / 4 : ℚ) (by norm_num) 2 2 4 (by norm_num) (by norm_num) (by norm_num)
  rw [this]
  decide +kernel

/-- A schedule the second negative theorem is about. -/
example : run id (1 : ℚ) 65537 1 2 = .fatal :=
  C42_short_fails 1 (by norm_num) 65537 1 2 (by norm_num) (by norm_num) (by norm_num) (by norm_num)

end Out
end Pico
