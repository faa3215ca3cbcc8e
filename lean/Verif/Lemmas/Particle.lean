import Verif.Model.Particle
import Verif.Spec.Reflect
import Verif.Lemmas.CurrentVB
import Mathlib.Algebra.Order.Archimedean.Basic
import Mathlib.Algebra.Order.Floor.Semiring
import Mathlib.Algebra.Order.Floor.Extended
import Mathlib.Tactic.Linarith
import Mathlib.Tactic.Positivity
import Mathlib.Tactic.Ring

set_option linter.unusedSectionVars false
set_option linter.unusedSimpArgs false
set_option linter.unusedVariables false

namespace Pico

theorem While.det {σ : Type _} {cond : σ → Bool} {body : σ → σ} {s t t' : σ}
    (h : While cond body s t) (h' : While cond body s t') : t = t' := by
  induction h with
  | done h => cases h' with
    | done _ => rfl
    | step k _ => rw [h] at k; exact absurd k nofun
  | step h _ ih => cases h' with
    | done k => rw [h] at k; exact absurd k nofun
    | step _ k => exact ih k

theorem While.exit {σ : Type _} {cond : σ → Bool} {body : σ → σ} {s t : σ}
    (h : While cond body s t) : cond t = false := by
  induction h with
  | done h => exact h
  | step _ _ ih => exact ih

theorem While.diverges {σ : Type _} {cond : σ → Bool} {body : σ → σ} (P : σ → Prop)
    (h : ∀ s, P s → cond s = true ∧ P (body s)) {s t : σ} (hs : P s) : ¬ While cond body s t := by
  intro w
  induction w with
  | done k => rw [(h _ hs).1] at k; exact absurd k nofun
  | step _ _ ih => exact ih (h _ hs).2

namespace Part

variable {K : Type _} [Field K] [LinearOrder K] [IsStrictOrderedRing K] [FloorRing K]

/-- One turn of the loop for one coordinate. -/
def cstep (lo hi : K) (wl wh : Bool) (a : K × K) : K × K :=
  let b := if hi < a.1 && wh then (hi * 2 - a.1, -a.2) else a
  if b.1 < lo && wl then (2 * lo - b.1, -b.2) else b

def out (lo hi : K) (wl wh : Bool) (x : K) : Bool := (hi < x && wh) || (x < lo && wl)

theorem fix_lo {lo x : K} (h : x < lo) : (if 2 * lo - x < lo then lo else 2 * lo - x) = 2 * lo - x :=
  if_neg (by linarith)

theorem body_r (g : Geom K) (w : Walls) (s : Refl K) :
    ((reflBody g w s).r, (reflBody g w s).vr) = cstep (g.dr / 2) (g.nr * g.dr - g.dr / 2) w.r0 w.r1 (s.r, s.vr) := by
  have e : ∀ t : Refl K, (reflZ0 g w t).r = t.r ∧ (reflZ0 g w t).vr = t.vr := by
    intro t; unfold reflZ0; split <;> exact ⟨rfl, rfl⟩
  have e1 : ∀ t : Refl K, (reflZ1 g w t).r = t.r ∧ (reflZ1 g w t).vr = t.vr := by
    intro t; unfold reflZ1; split <;> exact ⟨rfl, rfl⟩
  have e0 : ∀ t : Refl K, ((reflR0 g w t).r, (reflR0 g w t).vr) =
      if t.r < g.dr / 2 && w.r0 then (2 * (g.dr / 2) - t.r, -t.vr) else (t.r, t.vr) := by
    intro t; unfold reflR0
    split
    · next h =>
      have h' : t.r < g.dr / 2 := by simpa using (Bool.and_eq_true_iff.mp h).1
      dsimp only
      rw [if_neg (by linarith)]
      congr 1; ring
    · rfl
  have e2 : ((reflR1 g w s).r, (reflR1 g w s).vr) =
      if g.nr * g.dr - g.dr / 2 < s.r && w.r1 then ((g.nr * g.dr - g.dr / 2) * 2 - s.r, -s.vr) else (s.r, s.vr) := by
    unfold reflR1; split <;> rfl
  unfold reflBody cstep
  rw [(e _).1, (e _).2, e0, (e1 _).1, (e1 _).2]
  dsimp only
  rw [← e2]

theorem body_z (g : Geom K) (w : Walls) (s : Refl K) :
    ((reflBody g w s).z, (reflBody g w s).vz) = cstep (g.dz / 2) (g.nz * g.dz - g.dz / 2) w.z0 w.z1 (s.z, s.vz) := by
  have e : ∀ t : Refl K, (reflR0 g w t).z = t.z ∧ (reflR0 g w t).vz = t.vz := by
    intro t; unfold reflR0; split <;> exact ⟨rfl, rfl⟩
  have e1 : ∀ t : Refl K, (reflR1 g w t).z = t.z ∧ (reflR1 g w t).vz = t.vz := by
    intro t; unfold reflR1; split <;> exact ⟨rfl, rfl⟩
  have e0 : ∀ t : Refl K, ((reflZ0 g w t).z, (reflZ0 g w t).vz) =
      if t.z < g.dz / 2 && w.z0 then (2 * (g.dz / 2) - t.z, -t.vz) else (t.z, t.vz) := by
    intro t; unfold reflZ0
    split
    · next h =>
      have h' : t.z < g.dz / 2 := by simpa using (Bool.and_eq_true_iff.mp h).1
      dsimp only
      rw [if_neg (by linarith)]
      congr 1; ring
    · rfl
  have e2 : ∀ t : Refl K, ((reflZ1 g w t).z, (reflZ1 g w t).vz) =
      if g.nz * g.dz - g.dz / 2 < t.z && w.z1 then ((g.nz * g.dz - g.dz / 2) * 2 - t.z, -t.vz) else (t.z, t.vz) := by
    intro t; unfold reflZ1; split <;> rfl
  have e3 := e2 (reflR1 g w s)
  rw [(e1 _).1, (e1 _).2] at e3
  unfold reflBody cstep
  rw [e0, (e _).1, (e _).2]
  dsimp only
  rw [← e3]

theorem cond_eq (g : Geom K) (w : Walls) (s : Refl K) :
    reflCond g w s = (decide (s.r ≠ 0) && decide (s.z ≠ 0) &&
      (out (g.dr / 2) (g.nr * g.dr - g.dr / 2) w.r0 w.r1 s.r || out (g.dz / 2) (g.nz * g.dz - g.dz / 2) w.z0 w.z1 s.z)) := by
  unfold reflCond out
  congr 1
  generalize (decide (g.nr * g.dr - g.dr / 2 < s.r) && w.r1) = a
  generalize (decide (g.nz * g.dz - g.dz / 2 < s.z) && w.z1) = b
  generalize (decide (s.r < g.dr / 2) && w.r0) = c
  generalize (decide (s.z < g.dz / 2) && w.z0) = d
  cases a <;> cases b <;> cases c <;> cases d <;> rfl

section coord
variable {lo hi : K} {wl wh : Bool}

theorem out_false {x : K} : out lo hi wl wh x = false ↔ (wh = true → x ≤ hi) ∧ (wl = true → lo ≤ x) := by
  unfold out
  cases wl <;> cases wh <;> simp

theorem cstep_in {a : K × K} (h : out lo hi wl wh a.1 = false) : cstep lo hi wl wh a = a := by
  rw [out_false] at h
  unfold cstep
  have h1 : (decide (hi < a.1) && wh) = false := by
    cases wh
    · simp
    · simpa using h.1 rfl
  have h2 : (decide (a.1 < lo) && wl) = false := by
    cases wl
    · simp
    · simpa using h.2 rfl
  simp only [h1, h2]
  simp [h2]

/-- The wall positions as options. -/
def wallAt (w : Bool) (x : K) : Option K := if w then some x else none

theorem between_of_out {x : K} (h : out lo hi wl wh x = false) : Between (wallAt wl lo) (wallAt wh hi) x := by
  rw [out_false] at h
  constructor
  · intro l hl
    unfold wallAt at hl
    split at hl
    · next k => cases hl; exact h.2 k
    · exact absurd hl nofun
  · intro l hl
    unfold wallAt at hl
    split at hl
    · next k => cases hl; exact h.1 k
    · exact absurd hl nofun

theorem out_of_between {x : K} (h : Between (wallAt wl lo) (wallAt wh hi) x) : out lo hi wl wh x = false := by
  rw [out_false]
  exact ⟨fun k => h.2 hi (by simp [wallAt, k]), fun k => h.1 lo (by simp [wallAt, k])⟩

theorem mirrored_trans {l h : Option K} {a b c : K × K} (x : Mirrored l h a b) (y : Mirrored l h b c) : Mirrored l h a c := by
  induction y with
  | refl => exact x
  | low _ k m ih => exact Mirrored.low ih k m
  | high _ k m ih => exact Mirrored.high ih k m

theorem mirrored_step (a : K × K) : Mirrored (wallAt wl lo) (wallAt wh hi) a (cstep lo hi wl wh a) := by
  obtain ⟨x, v⟩ := a
  have s1 : Mirrored (wallAt wl lo) (wallAt wh hi) (x, v) (if hi < x && wh then (hi * 2 - x, -v) else (x, v)) := by
    split
    · next k =>
      have k := Bool.and_eq_true_iff.mp k
      have := Mirrored.high (lo := wallAt wl lo) (hi := wallAt wh hi) (Mirrored.refl (x, v)) (h := hi)
        (by simp [wallAt, k.2]) (by simpa using k.1)
      have e : hi * 2 - x = hi - (x - hi) := by ring
      rw [e]; exact this
    · exact .refl _
  unfold cstep
  dsimp only
  generalize (if hi < x && wh then (hi * 2 - x, -v) else (x, v)) = b at s1 ⊢
  obtain ⟨y, u⟩ := b
  dsimp only
  split
  · next k =>
    have k := Bool.and_eq_true_iff.mp k
    have := Mirrored.low (lo := wallAt wl lo) (hi := wallAt wh hi) s1 (l := lo)
      (by simp [wallAt, k.2]) (by simpa using k.1)
    have e : 2 * lo - y = lo - (y - lo) := by ring
    rw [e]; exact this
  · exact s1

theorem mirrored_iter (a : K × K) (n : Nat) : Mirrored (wallAt wl lo) (wallAt wh hi) a ((cstep lo hi wl wh)^[n] a) := by
  induction n generalizing a with
  | zero => exact .refl _
  | succ n ih => rw [Function.iterate_succ_apply]; exact mirrored_trans (mirrored_step a) (ih _)

theorem settle_both (h : lo < hi) (N : Nat) (x v : K) (h1 : lo ≤ x) (h2 : x ≤ hi + N * (2 * (hi - lo))) :
    ∃ n, out lo hi true true ((cstep lo hi true true)^[n] (x, v)).1 = false := by
  induction N generalizing x v with
  | zero => exact ⟨0, by rw [out_false]; simp at h2; exact ⟨fun _ => h2, fun _ => h1⟩⟩
  | succ N ih =>
    by_cases c : x ≤ hi
    · exact ⟨0, by rw [out_false]; exact ⟨fun _ => c, fun _ => h1⟩⟩
    · push Not at c
      by_cases d : hi * 2 - x < lo
      · have e : cstep lo hi true true (x, v) = (2 * lo - (hi * 2 - x), - -v) := by
          unfold cstep; simp [c, d]
        obtain ⟨n, hn⟩ := ih (2 * lo - (hi * 2 - x)) (- -v) (by linarith) (by push_cast at h2; linarith)
        exact ⟨n + 1, by rw [Function.iterate_succ_apply, e]; exact hn⟩
      · have e : cstep lo hi true true (x, v) = (hi * 2 - x, -v) := by
          unfold cstep; simp [c, d]
        refine ⟨1, ?_⟩
        rw [Function.iterate_one, e, out_false]
        exact ⟨fun _ => by linarith, fun _ => by linarith⟩

theorem settle (h : lo < hi ∨ ¬ (wl = true ∧ wh = true)) (x v : K) :
    ∃ n, out lo hi wl wh ((cstep lo hi wl wh)^[n] (x, v)).1 = false := by
  cases wl <;> cases wh
  · exact ⟨0, by rw [out_false]; exact ⟨nofun, nofun⟩⟩
  · by_cases c : hi < x
    · refine ⟨1, ?_⟩
      have e : cstep lo hi false true (x, v) = (hi * 2 - x, -v) := by unfold cstep; simp [c]
      rw [Function.iterate_one, e, out_false]
      exact ⟨fun _ => by linarith, nofun⟩
    · exact ⟨0, by rw [out_false]; exact ⟨fun _ => not_lt.mp c, nofun⟩⟩
  · by_cases c : x < lo
    · refine ⟨1, ?_⟩
      have e : cstep lo hi true false (x, v) = (2 * lo - x, -v) := by unfold cstep; simp [c]
      rw [Function.iterate_one, e, out_false]
      exact ⟨nofun, fun _ => by linarith⟩
    · exact ⟨0, by rw [out_false]; exact ⟨nofun, fun _ => not_lt.mp c⟩⟩
  · have h : lo < hi := h.resolve_right (by simp)
    have arch : ∀ y : K, ∃ N : Nat, y ≤ hi + N * (2 * (hi - lo)) := by
      intro y
      obtain ⟨N, hN⟩ := exists_nat_ge ((y - hi) / (2 * (hi - lo)))
      refine ⟨N, ?_⟩
      rw [div_le_iff₀ (by linarith)] at hN
      linarith
    by_cases c : x < lo
    · have e : cstep lo hi true true (x, v) = (2 * lo - x, -v) := by
        unfold cstep; simp [c, not_lt.mpr (le_of_lt (c.trans h))]
      obtain ⟨N, hN⟩ := arch (2 * lo - x)
      obtain ⟨n, hn⟩ := settle_both h N (2 * lo - x) (-v) (by linarith) hN
      exact ⟨n + 1, by rw [Function.iterate_succ_apply, e]; exact hn⟩
    · obtain ⟨N, hN⟩ := arch x
      exact settle_both h N x v (not_lt.mp c) hN

theorem settled_stays {a : K × K} (n m : Nat) (h : out lo hi wl wh ((cstep lo hi wl wh)^[n] a).1 = false) (hm : n ≤ m) :
    out lo hi wl wh ((cstep lo hi wl wh)^[m] a).1 = false := by
  obtain ⟨k, rfl⟩ := Nat.exists_eq_add_of_le hm
  rw [Nat.add_comm, Function.iterate_add_apply]
  have : ∀ k, (cstep lo hi wl wh)^[k] ((cstep lo hi wl wh)^[n] a) = (cstep lo hi wl wh)^[n] a := by
    intro k
    induction k with
    | zero => rfl
    | succ k ih => rw [Function.iterate_succ_apply, cstep_in h, ih]
  rw [this]; exact h

/-- The loop does not stop because the coordinate becomes exactly zero. -/
def Normal (hi : K) (wl wh : Bool) (x : K) : Prop := x ≠ 0 ∧ (wl = true ∨ wh = false ∨ x ≠ 2 * hi)

theorem normal_step (h0 : 0 < lo) (h1 : 0 < hi) (a : K × K) (h : Normal hi wl wh a.1) :
    Normal hi wl wh (cstep lo hi wl wh a).1 := by
  obtain ⟨x, v⟩ := a
  cases wl with
  | true =>
    refine ⟨?_, Or.inl rfl⟩
    unfold cstep
    dsimp only
    generalize (if hi < x && wh then (hi * 2 - x, -v) else (x, v)) = b
    by_cases c : b.1 < lo
    · rw [if_pos (by simp [c])]
      show 2 * lo - b.1 ≠ 0
      intro k; linarith
    · rw [if_neg (by simp [c])]
      intro k; rw [k] at c; exact c h0
  | false =>
    cases wh with
    | false =>
      have : cstep lo hi false false (x, v) = (x, v) := by unfold cstep; simp
      rw [this]; exact h
    | true =>
      have h3 : x ≠ 2 * hi := by rcases h.2 with k | k | k
                                 · exact absurd k nofun
                                 · exact absurd k nofun
                                 · exact k
      by_cases c : hi < x
      · have : cstep lo hi false true (x, v) = (hi * 2 - x, -v) := by unfold cstep; simp [c]
        rw [this]
        refine ⟨?_, Or.inr (Or.inr ?_)⟩
        · intro k
          have k : hi * 2 - x = 0 := k
          exact h3 (by linarith)
        · intro k
          have k : hi * 2 - x = 2 * hi := k
          linarith
      · have : cstep lo hi false true (x, v) = (x, v) := by unfold cstep; simp [c]
        rw [this]; exact h
end coord

/-- The loop of `reflect` ends and both coordinates are inside. -/
theorem reflect_loop (g : Geom K) (w : Walls) (G : g.Good) (hn1 : 1 ≤ g.nr) (hn2 : 1 ≤ g.nz) (n : Nat) (s : Refl K)
    (nr : Normal (g.nr * g.dr - g.dr / 2) w.r0 w.r1 s.r) (nz : Normal (g.nz * g.dz - g.dz / 2) w.z0 w.z1 s.z)
    (hr : out (g.dr / 2) (g.nr * g.dr - g.dr / 2) w.r0 w.r1 ((cstep (g.dr / 2) (g.nr * g.dr - g.dr / 2) w.r0 w.r1)^[n] (s.r, s.vr)).1 = false)
    (hz : out (g.dz / 2) (g.nz * g.dz - g.dz / 2) w.z0 w.z1 ((cstep (g.dz / 2) (g.nz * g.dz - g.dz / 2) w.z0 w.z1)^[n] (s.z, s.vz)).1 = false) :
    ∃ t m, While (reflCond g w) (reflBody g w) s t ∧
      (t.r, t.vr) = (cstep (g.dr / 2) (g.nr * g.dr - g.dr / 2) w.r0 w.r1)^[m] (s.r, s.vr) ∧
      (t.z, t.vz) = (cstep (g.dz / 2) (g.nz * g.dz - g.dz / 2) w.z0 w.z1)^[m] (s.z, s.vz) ∧
      out (g.dr / 2) (g.nr * g.dr - g.dr / 2) w.r0 w.r1 t.r = false ∧
      out (g.dz / 2) (g.nz * g.dz - g.dz / 2) w.z0 w.z1 t.z = false := by
  have dr := G.dr
  have dz := G.dz
  have hnr : (1 : K) ≤ g.nr := by exact_mod_cast hn1
  have hnz : (1 : K) ≤ g.nz := by exact_mod_cast hn2
  have phr : 0 < g.nr * g.dr - g.dr / 2 := by nlinarith
  have phz : 0 < g.nz * g.dz - g.dz / 2 := by nlinarith
  induction n generalizing s with
  | zero =>
    refine ⟨s, 0, .done ?_, rfl, rfl, hr, hz⟩
    rw [cond_eq]
    have hr : out (g.dr / 2) (g.nr * g.dr - g.dr / 2) w.r0 w.r1 s.r = false := hr
    have hz : out (g.dz / 2) (g.nz * g.dz - g.dz / 2) w.z0 w.z1 s.z = false := hz
    rw [hr, hz]; simp
  | succ n ih =>
    by_cases c : reflCond g w s = true
    · rw [Function.iterate_succ_apply, ← body_r] at hr
      rw [Function.iterate_succ_apply, ← body_z] at hz
      have nr' := normal_step (lo := g.dr / 2) (by linarith) phr (s.r, s.vr) nr
      have nz' := normal_step (lo := g.dz / 2) (by linarith) phz (s.z, s.vz) nz
      rw [← body_r] at nr'
      rw [← body_z] at nz'
      obtain ⟨t, m, h1, h2, h3, h4, h5⟩ := ih (reflBody g w s) nr' nz' hr hz
      refine ⟨t, m + 1, .step c h1, ?_, ?_, h4, h5⟩
      · rw [Function.iterate_succ_apply, ← body_r]; exact h2
      · rw [Function.iterate_succ_apply, ← body_z]; exact h3
    · have c' : reflCond g w s = false := by simpa using c
      have c2 := c'
      rw [cond_eq] at c2
      have n1 : decide (s.r ≠ 0) = true := by simpa using nr.1
      have n2 : decide (s.z ≠ 0) = true := by simpa using nz.1
      rw [n1, n2, Bool.true_and, Bool.true_and, Bool.or_eq_false_iff] at c2
      exact ⟨s, 0, .done c', rfl, rfl, c2.1, c2.2⟩

end Part
end Pico
