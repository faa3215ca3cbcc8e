import Verif.Props.Pusher
import Verif.Props.Output

/-! Properties C26 and C75, as far as they hold. -/

namespace Pico
namespace Pusher

open Rel

/-- `v` is not longer than `a`. -/
def Within (v : Vec3 ℝ) (a : ℝ) : Prop := 0 ≤ a ∧ v.length2 ≤ a ^ 2

theorem within_add {u v : Vec3 ℝ} {a b : ℝ} (hu : Within u a) (hv : Within v b) : Within (u.add v) (a + b) := by
  obtain ⟨a0, hu⟩ := hu
  obtain ⟨b0, hv⟩ := hv
  refine ⟨by positivity, ?_⟩
  have cs : (u.x * v.x + u.y * v.y + u.z * v.z) ^ 2 ≤ u.length2 * v.length2 := by
    unfold Vec3.length2
    nlinarith [sq_nonneg (u.x * v.y - u.y * v.x), sq_nonneg (u.x * v.z - u.z * v.x), sq_nonneg (u.y * v.z - u.z * v.y)]
  have d : u.x * v.x + u.y * v.y + u.z * v.z ≤ a * b := by
    refine abs_le_of_sq_le_sq' ?_ (by positivity) |>.2
    calc _ ≤ _ := cs
      _ ≤ a ^ 2 * b ^ 2 := mul_le_mul hu hv (len2_nonneg _) (by positivity)
      _ = _ := by ring
  have e : (u.add v).length2 = u.length2 + v.length2 + 2 * (u.x * v.x + u.y * v.y + u.z * v.z) := by
    unfold Vec3.length2 Vec3.add Vec3.zip
    dsimp only
    ring
  rw [e]
  nlinarith

theorem within_classic (P : Par) {e v : Vec3 ℝ} (b : Vec3 ℝ) {a V : ℝ} (he : Within (e.smul P.k) a) (hv : Within v V) :
    Within (borisClassic P e b v) (V + 2 * a) := by
  have h1 := within_add hv he
  have h2 : Within (rotate (b.smul (P.k * P.mu)) (v.add (e.smul P.k))) (V + a) := ⟨h1.1, by rw [rotate_norm]; exact h1.2⟩
  have h3 := within_add h2 he
  unfold borisClassic
  dsimp only
  convert h3 using 1
  ring

/-- **C26**, one push with the classic pusher: the speed grows by at most twice the kick `|q E dt / 2m|`, whatever the magnetic field; it stays
below the speed of light as long as there is so much room.  Full statement (false, `C26_adaptive_fails`): for all fields. -/
theorem C26_classic_partial (P : Par) (junk : Bool) (e b v : Vec3 ℝ) {a V : ℝ} (he : Within (e.smul P.k) a) (hv : Within v V) :
    ∃ w, pushV .boris P junk e b v = .ok w ∧ Within w (V + 2 * a) ∧ (V + 2 * a < P.c → w.length2 < P.c ^ 2) := by
  have h := within_classic P b he hv
  exact ⟨_, rfl, h, fun k => lt_of_le_of_lt h.2 (by have := h.1; nlinarith)⟩

/-- **C26**, any number of pushes with the default pusher: if every kick leaves the room between the switch (at the speed `L`) and the speed of
light, a particle slower than light stays slower than light for ever, whatever the uninitialised flags are, and no push aborts. -/
theorem C26_history_partial (P : Par) (hc : 0 < P.c) {L a : ℝ} (hL : 0 ≤ L) (hl : P.lim = L ^ 2) (room : L + 2 * a < P.c)
    (fields : List (Bool × Vec3 ℝ × Vec3 ℝ)) (hf : ∀ f ∈ fields, Within (f.2.1.smul P.k) a) (v : Vec3 ℝ) (hv : v.length2 < P.c ^ 2) :
    ∃ w, loop (fun (f : Bool × Vec3 ℝ × Vec3 ℝ) v => pushV .borisAdaptive P f.1 f.2.1 f.2.2 v) fields v = .ok w ∧ w.length2 < P.c ^ 2 ∧
      ∃ γ, lorenzFactor P.c w.length2 = .ok γ := by
  induction fields generalizing v with
  | nil =>
    obtain ⟨γ, e, _⟩ := lorenz_lt hc hv
    exact ⟨v, rfl, hv, γ, e⟩
  | cons f fs ih =>
    have one : ∃ w, pushV .borisAdaptive P f.1 f.2.1 f.2.2 v = .ok w ∧ w.length2 < P.c ^ 2 := by
      have rel := C72_step .borisRelativistic (.inl rfl) P f.1 hc f.2.1 f.2.2 v hv
      by_cases c : P.lim < v.length2
      · show ∃ w, borisAdaptive _ _ _ _ _ = _ ∧ _
        rw [adaptive_fast _ _ _ _ _ c]
        exact rel
      · show ∃ w, borisAdaptive _ _ _ _ _ = _ ∧ _
        rw [adaptive_slow _ _ _ _ _ (not_lt.mp c)]
        split_ifs
        · exact rel
        · have h := within_classic P f.2.2 (hf f (List.mem_cons_self ..)) ⟨hL, by rw [← hl]; exact not_lt.mp c⟩
          exact ⟨_, rfl, lt_of_le_of_lt h.2 (by have := h.1; nlinarith)⟩
    obtain ⟨w, e, hw⟩ := one
    rw [loop_cons, e, Res.ok_bind]
    exact ih (fun f hf' => hf f (List.mem_cons_of_mem _ hf')) w hw

/-- The hypotheses of `C26_history_partial`: the switch at a tenth of the speed of light, kicks of two fifths of it, a hundred of them. -/
example : ∃ w, loop (fun (f : Bool × Vec3 ℝ × Vec3 ℝ) v => pushV .borisAdaptive ⟨1, 1, 1/100, 1, 2, 1⟩ f.1 f.2.1 f.2.2 v)
    (List.replicate 100 (false, ⟨2/5, 0, 0⟩, ⟨0, 3, 7⟩)) ⟨1/20, 0, 0⟩ = .ok w ∧ w.length2 < 1 ^ 2 ∧ ∃ γ, lorenzFactor 1 w.length2 = .ok γ :=
  C26_history_partial ⟨1, 1, 1/100, 1, 2, 1⟩ (by norm_num) (L := 1/10) (a := 2/5) (by norm_num) (by norm_num) (by norm_num) _
    (fun f hf => by
      obtain rfl := List.eq_of_mem_replicate hf
      norm_num [Within, Vec3.length2, Vec3.smul, Par.k]) _ (by norm_num [Vec3.length2])

end Pusher

namespace Out

variable {K : Type} [Field K] [LinearOrder K] [IsStrictOrderedRing K] [FloorRing K]

/-- **C75**, as far as it holds: with a positive step and an interval that starts at zero, the run makes one step for each multiple of the step in
the interval and then ends.  Full statement (false, `C75_start_fails`, `C75_step_fails`): for every start, and with other steps rejected. -/
theorem C75_zero_partial (stop step : K) (hs : 0 < step) (he : 0 ≤ stop) :
    ∃ u, MainLoop (initTime 0 stop step, 0) u ∧ (∀ u', MainLoop (initTime 0 stop step, 0) u' → u' = u) ∧
      ∀ n : Nat, n < u.2 ↔ (n : K) * step ≤ stop := by
  obtain ⟨u, hu, uq, hn, _⟩ := C43_steps 0 stop step hs
  refine ⟨u, hu, uq, fun n => ?_⟩
  have h0 : 0 ≤ ⌊stop / step⌋ := Int.floor_nonneg.mpr (by positivity)
  rw [max_eq_right (by omega)] at hn
  have : (n : K) * step ≤ stop ↔ (n : Int) ≤ ⌊stop / step⌋ := by
    rw [Int.le_floor, le_div_iff₀ hs]
    simp
  rw [this]
  omega

example : ∃ u, MainLoop (initTime (0 : ℚ) 1 (1 / 3), 0) u ∧ (∀ u', MainLoop (initTime (0 : ℚ) 1 (1 / 3), 0) u' → u' = u) ∧
    ∀ n : Nat, n < u.2 ↔ (n : ℚ) * (1 / 3) ≤ 1 := C75_zero_partial 1 (1 / 3) (by norm_num) (by norm_num)

end Out
end Pico
