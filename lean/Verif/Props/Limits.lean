import Verif.Model.Limits
import Verif.Lemmas.Base
import Mathlib.Tactic.Linarith
import Mathlib.Tactic.Ring
import Mathlib.Tactic.FieldSimp
import Mathlib.Tactic.Positivity
import Mathlib.Tactic.NormNum
import Mathlib.Algebra.BigOperators.Group.List.Basic
import Mathlib.Algebra.Order.BigOperators.Group.List
import Mathlib.Data.Rat.Floor

/-!
# C65 — macroparticle budget;  C47 — its division over the domains;  C48 — limits of the configuration
-/

set_option linter.unusedSimpArgs false
set_option linter.unusedVariables false
set_option linter.unusedSectionVars false

namespace Pico
namespace Limits

section
variable {K : Type _} [Field K] [LinearOrder K] [IsStrictOrderedRing K] [FloorRing K]

theorem toUInt_ok (x : K) (h0 : 0 ≤ x) (h1 : x < 2 ^ 32) : toUInt x = .ok ⌊x⌋₊ := by
  unfold toUInt
  rw [if_neg]
  rintro (h | h)
  · linarith
  · exact absurd h (not_le.mpr h1)

theorem convertAll_ok (l : List K) (h : ∀ x ∈ l, 0 ≤ x ∧ x < 2 ^ 32) :
    convertAll l = .ok (l.map fun x => ⌊x⌋₊) := by
  induction l with
  | nil => rfl
  | cons x l ih =>
    rw [convertAll, toUInt_ok x (h x (List.mem_cons_self ..)).1 (h x (List.mem_cons_self ..)).2, Res.ok_bind,
      ih (fun y hy => h y (List.mem_cons_of_mem _ hy)), Res.ok_bind]
    rfl

/-- Rounding down a list of numbers loses less than one per number. -/
theorem floor_sum (l : List K) (h : ∀ x ∈ l, 0 ≤ x) :
    (((l.map fun x => ⌊x⌋₊).sum : Nat) : K) ≤ l.sum ∧ l.sum ≤ ((l.map fun x => ⌊x⌋₊).sum : Nat) + l.length ∧
      (l ≠ [] → l.sum < ((l.map fun x => ⌊x⌋₊).sum : Nat) + l.length) := by
  induction l with
  | nil => simp
  | cons x l ih =>
    obtain ⟨h1, h2, _⟩ := ih (fun y hy => h y (List.mem_cons_of_mem _ hy))
    have f1 := Nat.floor_le (h x (List.mem_cons_self ..))
    have f2 := Nat.lt_floor_add_one x
    simp only [List.map_cons, List.sum_cons, List.length_cons]
    push_cast at *
    refine ⟨by linarith, by linarith, fun _ => by linarith⟩

theorem normSum_eq (nr nz species : Nat) (dr dz ratio : K) (bs : List (Beam K)) :
    normSum nr nz species dr dz ratio bs = (nr * nz * species : Nat) + (bs.map fun b => beamCells dr dz b * ratio).sum := by
  unfold normSum
  generalize ((nr * nz * species : Nat) : K) = a
  induction bs generalizing a with
  | nil => simp
  | cons b bs ih => rw [List.foldl_cons, ih, List.map_cons, List.sum_cons]; ring

/-- **C65.**  For every budget below `2^32`, every grid, all species and beams (with non-negative sizes, not all of them
empty): every species and every beam gets an amount, together they do not exceed the budget, and they stay below it by
less than the number of species and beams. -/
theorem C65_budget (total : K) (nr nz species : Nat) (dr dz ratio : K) (bs : List (Beam K)) (ht : 0 ≤ total)
    (ht' : total < 2 ^ 32) (hdr : 0 < dr) (hdz : 0 < dz) (hratio : 0 ≤ ratio)
    (hb : ∀ b ∈ bs, 0 ≤ b.radius ∧ 0 ≤ b.length)
    (hpos : 0 < nr * nz * species ∨ ∃ b ∈ bs, 0 < ratio ∧ 0 < b.radius ∧ 0 < b.length ∧ 0 < b.bunches) :
    ∃ sp bm, weightMacro total nr nz species dr dz ratio bs = .ok (sp, bm) ∧ sp.length = species ∧ bm.length = bs.length ∧
      ((sp.sum + bm.sum : Nat) : K) ≤ total ∧ total < ((sp.sum + bm.sum : Nat) : K) + (species + bs.length : Nat) := by
  have hcell : ∀ b ∈ bs, 0 ≤ beamCells dr dz b * ratio := by
    intro b hbm
    obtain ⟨h1, h2⟩ := hb b hbm
    unfold beamCells
    positivity
  have hS : 0 ≤ (bs.map fun b => beamCells dr dz b * ratio).sum :=
    List.sum_nonneg (fun x hx => by obtain ⟨b, hb', rfl⟩ := List.mem_map.mp hx; exact hcell b hb')
  have hsum := normSum_eq nr nz species dr dz ratio bs
  set S := normSum nr nz species dr dz ratio bs with hSdef
  have hnn : (0 : K) ≤ ((nr * nz * species : Nat) : K) := Nat.cast_nonneg _
  have hSpos : 0 < S := by
    rcases hpos with h | ⟨b, hbm, h1, h2, h3, h4⟩
    · have : (0 : K) < ((nr * nz * species : Nat) : K) := by exact_mod_cast h
      linarith
    · have hbp : 0 < beamCells dr dz b * ratio := by
        have : (0 : K) < b.bunches := by exact_mod_cast h4
        unfold beamCells
        positivity
      have : beamCells dr dz b * ratio ≤ (bs.map fun b => beamCells dr dz b * ratio).sum :=
        List.single_le_sum (fun x hx => by obtain ⟨b, hb', rfl⟩ := List.mem_map.mp hx; exact hcell b hb') _
          (List.mem_map_of_mem hbm)
      linarith
  let L : List K := List.replicate species (((nr * nz : Nat) : K) * (total / S))
  let M : List K := bs.map fun b => beamCells dr dz b * (total / S) * ratio
  have hq : 0 ≤ total / S := div_nonneg ht hSpos.le
  have hLM : L.sum + M.sum = total := by
    have e1 : L.sum = ((nr * nz * species : Nat) : K) * (total / S) := by
      simp only [L, List.sum_replicate, nsmul_eq_mul]
      push_cast
      ring
    have e2 : M.sum = (bs.map fun b => beamCells dr dz b * ratio).sum * (total / S) := by
      simp only [M]
      rw [← List.sum_map_mul_right]
      congr 1
      apply List.map_congr_left
      intro b _
      ring
    rw [e1, e2, ← add_mul, ← hsum]
    field_simp
  have hL0 : ∀ x ∈ L, 0 ≤ x := by
    intro x hx
    rw [List.eq_of_mem_replicate hx]
    positivity
  have hM0 : ∀ x ∈ M, 0 ≤ x := by
    intro x hx
    obtain ⟨b, hbm, rfl⟩ := List.mem_map.mp hx
    have := mul_nonneg (hcell b hbm) hq
    have e : beamCells dr dz b * (total / S) * ratio = beamCells dr dz b * ratio * (total / S) := by ring
    rw [e]
    exact this
  have hL1 : ∀ x ∈ L, x < 2 ^ 32 := fun x hx => lt_of_le_of_lt
    (le_trans (List.single_le_sum hL0 x hx) (by have := List.sum_nonneg hM0; linarith)) ht'
  have hM1 : ∀ x ∈ M, x < 2 ^ 32 := fun x hx => lt_of_le_of_lt
    (le_trans (List.single_le_sum hM0 x hx) (by have := List.sum_nonneg hL0; linarith)) ht'
  refine ⟨L.map fun x => ⌊x⌋₊, M.map fun x => ⌊x⌋₊, ?_, by simp [L], by simp [M], ?_, ?_⟩
  · unfold weightMacro
    simp only
    rw [← hSdef, if_neg hSpos.ne']
    have e1 := convertAll_ok L (fun x hx => ⟨hL0 x hx, hL1 x hx⟩)
    have e2 := convertAll_ok M (fun x hx => ⟨hM0 x hx, hM1 x hx⟩)
    simp only [L, M] at e1 e2
    rw [e1, Res.ok_bind, e2, Res.ok_bind]
  · have h1 := (floor_sum L hL0).1
    have h2 := (floor_sum M hM0).1
    push_cast at *
    linarith
  · obtain ⟨_, a1, a2⟩ := floor_sum L hL0
    obtain ⟨_, b1, b2⟩ := floor_sum M hM0
    have hlL : L.length = species := by simp [L]
    have hlM : M.length = bs.length := by simp [M]
    rw [hlL] at a1 a2
    rw [hlM] at b1 b2
    push_cast at *
    by_cases hs : species = 0
    · have hbs : M ≠ [] := by
        rcases hpos with h | ⟨b, hbm, _⟩
        · simp [hs] at h
        · exact List.ne_nil_of_mem (List.mem_map_of_mem hbm)
      have := b2 hbs
      linarith
    · have hls : L ≠ [] := by
        intro h
        have := congrArg List.length h
        rw [hlL] at this
        exact hs (by simpa using this)
      have := a2 hls
      linarith

/-- **C65, shares.**  The amounts are shared by size: there is a number `c` of macroparticles per cell such that each species
gets `c` times the cells of the grid and each beam gets `c` times the weight `ratio` times the cells all its bunches cover,
rounded down; `c` times the sum of all these sizes is the budget. -/
theorem C65_shares (total : K) (nr nz species : Nat) (dr dz ratio : K) (bs : List (Beam K)) (sp bm : List Nat)
    (hr : 0 ≤ total) (hdr : 0 < dr) (hdz : 0 < dz) (hratio : 0 ≤ ratio) (hb : ∀ b ∈ bs, 0 ≤ b.radius ∧ 0 ≤ b.length)
    (h : weightMacro total nr nz species dr dz ratio bs = .ok (sp, bm)) :
    ∃ c : K, c * (nr * nz * species + (bs.map fun b => ratio * (b.radius / dr) * (b.bunches * b.length / dz)).sum) = total ∧
      sp.length = species ∧ (∀ n ∈ sp, (n : K) ≤ c * (nr * nz) ∧ c * (nr * nz) < n + 1) ∧
      List.Forall₂ (fun (b : Beam K) (n : Nat) => (n : K) ≤ c * (ratio * (b.radius / dr) * (b.bunches * b.length / dz)) ∧
        c * (ratio * (b.radius / dr) * (b.bunches * b.length / dz)) < (n : K) + 1) bs bm := by
  have conv : ∀ (l : List K) (ns : List Nat), (∀ x ∈ l, 0 ≤ x) → convertAll l = .ok ns → ns = l.map fun x => ⌊x⌋₊ := by
    intro l
    induction l with
    | nil => intro ns _ e; rw [convertAll] at e; injection e with e; rw [← e]; rfl
    | cons x l ih =>
      intro ns h0 e
      rw [convertAll] at e
      have hx := h0 x (List.mem_cons_self ..)
      unfold toUInt at e
      by_cases k : x ≤ -1 ∨ 2 ^ 32 ≤ x
      · rw [if_pos k] at e; exact absurd e (fun k => nomatch k)
      · rw [if_neg k, Res.ok_bind] at e
        cases e2 : convertAll l with
        | ok ms =>
          rw [e2, Res.ok_bind] at e
          injection e with e
          rw [← e, ih ms (fun y hy => h0 y (List.mem_cons_of_mem _ hy)) e2]
          rfl
        | fatal => rw [e2] at e; exact absurd e (fun k => nomatch k)
        | ub => rw [e2] at e; exact absurd e (fun k => nomatch k)
  unfold weightMacro at h
  dsimp only at h
  have hsum := normSum_eq nr nz species dr dz ratio bs
  have size : ∀ b : Beam K, beamCells dr dz b * ratio = ratio * (b.radius / dr) * (b.bunches * b.length / dz) := by
    intro b; unfold beamCells; ring
  simp only [size] at hsum
  have nn : ∀ b ∈ bs, 0 ≤ ratio * (b.radius / dr) * (b.bunches * b.length / dz) := by
    intro b hbm
    obtain ⟨h1, h2⟩ := hb b hbm
    positivity
  have sn : 0 ≤ normSum nr nz species dr dz ratio bs := by
    rw [hsum]
    have := List.sum_nonneg (l := bs.map fun b => ratio * (b.radius / dr) * (b.bunches * b.length / dz))
      (fun x hx => by obtain ⟨b, hb', rfl⟩ := List.mem_map.mp hx; exact nn b hb')
    have : (0 : K) ≤ ((nr * nz * species : Nat) : K) := Nat.cast_nonneg _
    linarith
  set S := normSum nr nz species dr dz ratio bs
  by_cases hz : S = 0
  · rw [if_pos hz] at h; exact absurd h (fun k => nomatch k)
  rw [if_neg hz] at h
  have c0 : 0 ≤ total / S := div_nonneg hr sn
  cases e1 : convertAll (List.replicate species (((nr * nz : Nat) : K) * (total / S))) with
  | fatal => rw [e1] at h; exact absurd h (fun k => nomatch k)
  | ub => rw [e1] at h; exact absurd h (fun k => nomatch k)
  | ok s1 =>
    rw [e1, Res.ok_bind] at h
    cases e2 : convertAll (bs.map fun b => beamCells dr dz b * (total / S) * ratio) with
    | fatal => rw [e2] at h; exact absurd h (fun k => nomatch k)
    | ub => rw [e2] at h; exact absurd h (fun k => nomatch k)
    | ok s2 =>
      rw [e2, Res.ok_bind] at h
      injection h with h
      obtain ⟨rfl, rfl⟩ := Prod.mk.injEq .. ▸ h
      have p1 : (0 : K) ≤ ((nr * nz : Nat) : K) * (total / S) := mul_nonneg (Nat.cast_nonneg _) c0
      have f1 := conv _ _ (fun x hx => by rw [List.eq_of_mem_replicate hx]; exact p1) e1
      have term : ∀ b : Beam K, beamCells dr dz b * (total / S) * ratio =
          total / S * (ratio * (b.radius / dr) * (b.bunches * b.length / dz)) := by
        intro b; rw [← size]; ring
      simp only [term] at e2
      have f2 := conv _ _ (fun x hx => by
        obtain ⟨b, hb', rfl⟩ := List.mem_map.mp hx; exact mul_nonneg c0 (nn b hb')) e2
      refine ⟨total / S, ?_, ?_, ?_, ?_⟩
      · have e : ((nr : K) * nz * species + (bs.map fun b => ratio * (b.radius / dr) * (b.bunches * b.length / dz)).sum) = S := by
          rw [hsum]; push_cast; rfl
        rw [e, div_mul_cancel₀ _ hz]
      · rw [f1]; simp
      · intro n hn
        rw [f1, List.map_replicate] at hn
        have := List.eq_of_mem_replicate hn
        subst this
        have e : total / S * ((nr : K) * nz) = ((nr * nz : Nat) : K) * (total / S) := by push_cast; ring
        rw [e]
        exact ⟨Nat.floor_le p1, Nat.lt_floor_add_one _⟩
      · rw [f2, List.map_map, List.forall₂_map_right_iff, List.forall₂_same]
        intro b hbm
        dsimp only [Function.comp]
        exact ⟨Nat.floor_le (mul_nonneg c0 (nn b hbm)), Nat.lt_floor_add_one _⟩

/-- The amount of a species is divided evenly over the domains: what is placed never exceeds it. -/
theorem C47_domains_partial (amount domR domZ : Nat) (hr : 0 < domR) (hz : 0 < domZ) :
    domR * domZ * perDomain amount domR domZ ≤ amount ∧
      amount < domR * domZ * perDomain amount domR domZ + domR * domZ := by
  unfold perDomain
  rw [Nat.div_div_eq_div_mul]
  have h1 := Nat.div_add_mod amount (domR * domZ)
  have h2 := Nat.mod_lt amount (Nat.mul_pos hr hz)
  omega

/-- Where C47 fails: the remainder of that division is lost, once per species.  Whenever it is at least the number of
species and beams, the bound of C65 does not hold for the macroparticles that are placed. -/
theorem C47_domains_fails (amount domR domZ count : Nat) (hr : 0 < domR) (hz : 0 < domZ)
    (h : count ≤ amount % (domR * domZ)) : domR * domZ * perDomain amount domR domZ + count ≤ amount := by
  unfold perDomain
  rw [Nat.div_div_eq_div_mul]
  have h1 := Nat.div_add_mod amount (domR * domZ)
  omega

example : perDomain 1000003 4 8 * 32 + 3 ≤ 1000003 := by decide

end

/-- A configuration like the default one: 64 by 256 cells, two species, one beam of ten bunches, a million
macroparticles. -/
example : ∃ sp bm, weightMacro (1000000 : ℚ) 64 256 2 (1 / 640) (1 / 640) 1 [⟨1 / 100, 1 / 5, 10⟩] = .ok (sp, bm) ∧
    sp.length = 2 ∧ bm.length = 1 ∧ ((sp.sum + bm.sum : Nat) : ℚ) ≤ 1000000 ∧
    1000000 < ((sp.sum + bm.sum : Nat) : ℚ) + (2 + 1 : Nat) :=
  C65_budget (1000000 : ℚ) 64 256 2 (1 / 640) (1 / 640) 1 [⟨1 / 100, 1 / 5, 10⟩] (by norm_num) (by norm_num) (by norm_num)
    (by norm_num) (by norm_num) (by simp) (Or.inl (by norm_num))

/-- The shares of that configuration exist. -/
example : ∃ (sp bm : List Nat) (c : ℚ), weightMacro (1000000 : ℚ) 64 256 2 (1 / 640) (1 / 640) 1 [⟨1 / 100, 1 / 5, 10⟩] = .ok (sp, bm) ∧
    c * (64 * 256 * 2 + 1 * ((1 / 100) / (1 / 640)) * (10 * (1 / 5) / (1 / 640))) = 1000000 := by
  obtain ⟨sp, bm, e, _⟩ := C65_budget (1000000 : ℚ) 64 256 2 (1 / 640) (1 / 640) 1 [⟨1 / 100, 1 / 5, 10⟩] (by norm_num) (by norm_num) (by norm_num)
    (by norm_num) (by norm_num) (by simp) (Or.inl (by norm_num))
  obtain ⟨c, h, _⟩ := C65_shares (1000000 : ℚ) 64 256 2 (1 / 640) (1 / 640) 1 [⟨1 / 100, 1 / 5, 10⟩] sp bm (by norm_num) (by norm_num)
    (by norm_num) (by norm_num) (by simp) e
  exact ⟨sp, bm, c, e, by simpa using h⟩

/-! ## C48 -/

/-- A species the checks take for electrons, for ions. -/
abbrev IsElectron (s : Specie) : Prop := s.name ∈ electronNames ∨ s.mass = 1
abbrev IsIon (s : Specie) : Prop := s.name ∈ ionNames

theorem badDomains_iff (n : Nat) : badDomains n = true ↔ ¬ (n = 1 ∨ n % 2 = 0) := by
  simp [badDomains]
  omega

theorem electrons_append (l : List Specie) (s : Specie) (hs : IsElectron s) :
    electrons (l ++ [s]) = ((s.left + s.right) / 2, s.temperature) := by
  unfold electrons
  rw [List.foldl_append, List.foldl_cons, List.foldl_nil, if_pos hs]

theorem electrons_some (l : List Specie) (h : (electrons l).1 ≠ 0) :
    ∃ s ∈ l, IsElectron s ∧ (electrons l).1 = (s.left + s.right) / 2 := by
  unfold electrons at h ⊢
  induction l using List.reverseRecOn with
  | nil => simp at h
  | append_singleton l s ih =>
    rw [List.foldl_append, List.foldl_cons, List.foldl_nil] at h ⊢
    by_cases hs : IsElectron s
    · exact ⟨s, by simp, hs, by rw [if_pos hs]⟩
    · rw [if_neg hs] at h ⊢
      obtain ⟨t, ht, h1, h2⟩ := ih h
      exact ⟨t, by simp [ht], h1, h2⟩

theorem ions_some (l : List Specie) (h : (ions l).1 ≠ 0) :
    ∃ s ∈ l, IsIon s ∧ (ions l).1 = (s.left + s.right) / 2 := by
  unfold ions at h ⊢
  induction l using List.reverseRecOn with
  | nil => simp at h
  | append_singleton l s ih =>
    rw [List.foldl_append, List.foldl_cons, List.foldl_nil] at h ⊢
    by_cases hs : IsIon s
    · exact ⟨s, by simp, hs, by rw [if_pos hs]⟩
    · rw [if_neg hs] at h ⊢
      obtain ⟨t, ht, h1, h2⟩ := ih h
      exact ⟨t, by simp [ht], h1, h2⟩

/-- The checks pass exactly in these cases. -/
theorem check_ok_iff (cl cp cd : ℝ) (c : Conf) : (∃ m, check cl cp cd c = .ok m) ↔
    (badDomains c.domR = false ∧ badDomains c.domZ = false) ∧ 0 < (electrons c.species).1 ∧ 0 < (ions c.species).1 := by
  unfold check
  by_cases h1 : (badDomains c.domR || badDomains c.domZ) = true
  · simp only [h1, if_true]
    constructor
    · rintro ⟨m, h⟩; cases h
    · rintro ⟨⟨a, b⟩, _⟩; simp [a, b] at h1
  · simp only [h1, if_false]
    simp only [Bool.or_eq_true, not_or, Bool.not_eq_true] at h1
    by_cases h2 : (electrons c.species).1 = 0
    · simp only [h2, if_true]
      constructor
      · rintro ⟨m, h⟩; simp at h
      · rintro ⟨_, a, _⟩; exact absurd a (lt_irrefl _)
    · simp only [h2, if_false]
      unfold debyeLength
      by_cases h3 : (electrons c.species).1 ≤ 0
      · simp only [h3, if_true]
        constructor
        · rintro ⟨m, h⟩; simp at h
        · rintro ⟨_, a, _⟩; exact absurd a (not_lt.mpr h3)
      · simp only [h3, if_false]
        by_cases h4 : (ions c.species).1 ≤ 0
        · simp only [h4, if_true]
          constructor
          · rintro ⟨m, h⟩; simp at h
          · rintro ⟨_, _, a⟩; exact absurd a (not_lt.mpr h4)
        · simp only [h4, if_false, Res.ok_bind]
          exact ⟨fun _ => ⟨h1, not_le.mp h3, not_le.mp h4⟩, fun _ => ⟨_, rfl⟩⟩

theorem check_total (cl cp cd : ℝ) (c : Conf) (h : ¬ ∃ m, check cl cp cd c = .ok m) : check cl cp cd c = .fatal := by
  cases e : check cl cp cd c with
  | ok m => exact absurd ⟨m, e⟩ h
  | fatal => rfl
  | ub =>
    exfalso
    unfold check at e
    split at e
    · cases e
    · simp only at e
      split at e
      · cases e
      · unfold debyeLength at e
        split at e
        · cases e
        · split at e
          · cases e
          · simp at e

/-- **C48 (partial).**  A configuration that passes has in each direction one domain or an even number of them, and has
electrons and ions of positive density; a configuration with another number of domains, or without any electrons of
non-zero density, ends the program.
Missing: zero domains and the time step, see the theorems below. -/
theorem C48_partial (cl cp cd : ℝ) (c : Conf) :
    ((∃ m, check cl cp cd c = .ok m) →
      ((c.domR = 1 ∨ c.domR % 2 = 0) ∧ (c.domZ = 1 ∨ c.domZ % 2 = 0)) ∧
      (∃ s ∈ c.species, IsElectron s ∧ 0 < (s.left + s.right) / 2) ∧
      (∃ s ∈ c.species, IsIon s ∧ 0 < (s.left + s.right) / 2)) ∧
    (¬ (c.domR = 1 ∨ c.domR % 2 = 0) ∨ ¬ (c.domZ = 1 ∨ c.domZ % 2 = 0) → check cl cp cd c = .fatal) ∧
    ((∀ s ∈ c.species, IsElectron s → (s.left + s.right) / 2 = 0) → check cl cp cd c = .fatal) := by
  refine ⟨?_, ?_, ?_⟩
  · intro h
    obtain ⟨⟨h1, h2⟩, h3, h4⟩ := (check_ok_iff cl cp cd c).mp h
    refine ⟨⟨?_, ?_⟩, ?_, ?_⟩
    · by_contra hn
      rw [(badDomains_iff _).mpr hn] at h1
      cases h1
    · by_contra hn
      rw [(badDomains_iff _).mpr hn] at h2
      cases h2
    · obtain ⟨s, hs, he, hd⟩ := electrons_some c.species h3.ne'
      exact ⟨s, hs, he, hd ▸ h3⟩
    · obtain ⟨s, hs, he, hd⟩ := ions_some c.species h4.ne'
      exact ⟨s, hs, he, hd ▸ h4⟩
  · intro h
    apply check_total
    intro hk
    obtain ⟨⟨h1, h2⟩, _⟩ := (check_ok_iff cl cp cd c).mp hk
    rcases h with h | h
    · rw [(badDomains_iff _).mpr h] at h1; cases h1
    · rw [(badDomains_iff _).mpr h] at h2; cases h2
  · intro h
    apply check_total
    intro hk
    obtain ⟨_, h3, _⟩ := (check_ok_iff cl cp cd c).mp hk
    obtain ⟨s, hs, he, hd⟩ := electrons_some c.species h3.ne'
    rw [hd, h s hs he] at h3
    exact absurd h3 (lt_irrefl _)

/-- **C48 (partial), time step.**  The message about the time step is printed exactly when the step is larger than the time
light needs for a cell or than a hundredth of the limit given by the plasma frequency. -/
theorem C48_step_partial (cl cp cd : ℝ) (c : Conf) (m : List Msg) (h : check cl cp cd c = .ok m) :
    Msg.timeStep ∈ m ↔ (c.dr / cl < c.step ∨ c.dz / cl < c.step ∨
      2 / plasmaFrequency cp (electrons c.species).1 / 100 < c.step) := by
  have hm : maxTime cl cp c < c.step ↔ (c.dr / cl < c.step ∨ c.dz / cl < c.step ∨
      2 / plasmaFrequency cp (electrons c.species).1 / 100 < c.step) := by
    unfold maxTime
    rw [min_lt_iff, min_lt_iff, or_assoc]
  rw [← hm]
  unfold check at h
  split at h
  · cases h
  · simp only at h
    split at h
    · cases h
    · cases hd : debyeLength cd (electrons c.species).1 (ions c.species).1 (ions c.species).2 (electrons c.species).2 with
      | ok ld =>
        rw [hd, Res.ok_bind] at h
        simp only [Res.ok.injEq] at h
        subst h
        simp only [List.mem_append]
        constructor
        · rintro ((h | h) | h)
          · by_contra hn
            simp [hn] at h
          · exfalso
            split at h <;> simp at h
          · exfalso
            split at h <;> simp at h
        · intro h
          simp [h]
      | fatal => rw [hd] at h; cases h
      | ub => rw [hd] at h; cases h

/-- Where C48 fails: that message is all; whatever the time step is, it does not decide whether the program goes on. -/
theorem C48_step_fails (cl cp cd : ℝ) (c : Conf) (h : ∃ m, check cl cp cd c = .ok m) (step : ℝ) :
    ∃ m, check cl cp cd { c with step := step } = .ok m := by
  rw [check_ok_iff] at h ⊢
  exact h

/-- Where C48 fails: zero domains are accepted (zero is a multiple of two). -/
theorem C48_zero_domains_fails (cl cp cd : ℝ) (c : Conf) (h : ∃ m, check cl cp cd c = .ok m) :
    ∃ m, check cl cp cd { c with domR := 0, domZ := 0 } = .ok m := by
  rw [check_ok_iff] at h ⊢
  exact ⟨⟨rfl, rfl⟩, h.2⟩

/-- Where C48 fails: only the last species that looks like electrons counts.  A configuration with electrons is rejected if
a later species with the mass of the electron has no density; and one whose `electrons` have none is accepted if such a
species follows that has. -/
theorem C48_last_match_fails (cl cp cd : ℝ) (c : Conf) (l : List Specie) (s : Specie) (hs : IsElectron s)
    (hc : c.species = l ++ [s]) :
    (s.left + s.right = 0 → check cl cp cd c = .fatal) ∧
    (0 < s.left + s.right → badDomains c.domR = false → badDomains c.domZ = false → 0 < (ions c.species).1 →
      ∃ m, check cl cp cd c = .ok m) := by
  have he : (electrons c.species).1 = (s.left + s.right) / 2 := by rw [hc, electrons_append l s hs]
  constructor
  · intro h0
    apply check_total
    intro hk
    obtain ⟨_, h3, _⟩ := (check_ok_iff cl cp cd c).mp hk
    rw [he, h0] at h3
    norm_num at h3
  · intro h0 h1 h2 h3
    rw [check_ok_iff]
    exact ⟨⟨h1, h2⟩, by rw [he]; linarith, h3⟩

/-- Where C48 fails: a plasma without a species named `Ions`, `ions`, `Ion` or `ion` is rejected, whatever it contains. -/
theorem C48_ion_name_fails (cl cp cd : ℝ) (c : Conf) (h : ∀ s ∈ c.species, ¬ IsIon s) : check cl cp cd c = .fatal := by
  apply check_total
  intro hk
  obtain ⟨_, _, h3⟩ := (check_ok_iff cl cp cd c).mp hk
  obtain ⟨s, hs, he, _⟩ := ions_some c.species h3.ne'
  exact h s hs he

/-- Where C48 fails: the Debye length the grid is compared with is that of a plasma with exchanged temperatures; with the
right ones the message about the grid can be missing.  (Equal densities `n` cannot show it; electrons of density `4 n`
at temperature `T`, ions of density `n` at `4 T`.) -/
theorem C48_debye_fails (cd n T : ℝ) (hc : 0 < cd) (hn : 0 < n) (hT : 0 < T) :
    ∃ right used, debyeLength cd (4 * n) n T (4 * T) = .ok right ∧ debyeLength cd (4 * n) n (4 * T) T = .ok used ∧
      right < used := by
  refine ⟨_, _, by unfold debyeLength; rw [if_neg (by linarith), if_neg (by linarith)],
    by unfold debyeLength; rw [if_neg (by linarith), if_neg (by linarith)], ?_⟩
  rw [if_neg (by rintro (h | h) <;> linarith), if_neg (by rintro (h | h) <;> linarith)]
  have e1 : 4 * n / T + n / (4 * T) = 17 / 4 * (n / T) := by field_simp; ring
  have e2 : 4 * n / (4 * T) + n / T = 2 * (n / T) := by field_simp; ring
  rw [e1, e2]
  have hq : 0 < n / T := div_pos hn hT
  apply div_lt_div_of_pos_left hc (Real.sqrt_pos.mpr (by linarith))
  exact Real.sqrt_lt_sqrt (by linarith) (by linarith)

def exElectrons : Specie := ⟨['e', 'l', 'e', 'c', 't', 'r', 'o', 'n', 's'], 1, 2, 4, 1⟩
def exIons : Specie := ⟨['i', 'o', 'n', 's'], 1836, 2, 4, 1⟩

/-- A configuration that passes. -/
def exConf : Conf := ⟨1, 4, 64, 1, 1, 64, 256, 1, [exElectrons, exIons], [10, 10]⟩

theorem electrons_pair (a b : Specie) (ha : IsElectron a) (hb : ¬ IsElectron b) :
    electrons [a, b] = ((a.left + a.right) / 2, a.temperature) := by
  unfold electrons
  rw [List.foldl_cons, List.foldl_cons, List.foldl_nil, if_neg hb, if_pos ha]

theorem ions_pair (a b : Specie) (hb : IsIon b) : ions [a, b] = ((b.left + b.right) / 2, b.temperature) := by
  unfold ions
  rw [List.foldl_cons, List.foldl_cons, List.foldl_nil, if_pos hb]

theorem exConf_ok : ∃ m, check 1 1 1 exConf = .ok m := by
  rw [check_ok_iff]
  refine ⟨⟨by decide, by decide⟩, ?_, ?_⟩
  · have h1 : IsElectron exElectrons := Or.inr rfl
    have h2 : ¬ IsElectron exIons := by
      rintro (h | h)
      · exact absurd h (by simp only [exIons]; decide)
      · norm_num [exIons] at h
    rw [show exConf.species = [exElectrons, exIons] from rfl, electrons_pair _ _ h1 h2]
    norm_num [exElectrons]
  · have h2 : IsIon exIons := by simp only [IsIon, exIons]; decide
    rw [show exConf.species = [exElectrons, exIons] from rfl, ions_pair _ _ h2]
    norm_num [exIons]

example : ∃ m, check 1 1 1 { exConf with step := 10 ^ 9 } = .ok m := C48_step_fails 1 1 1 exConf exConf_ok _

end Limits
end Pico
