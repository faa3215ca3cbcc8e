import Verif.Model.Species
import Verif.Lemmas.Base
import Mathlib.Tactic.NormNum
import Mathlib.Tactic.Linarith
import Mathlib.Tactic.FieldSimp
import Mathlib.Data.Rat.Floor

/-! # C89, C90 — species and beams of the configuration -/

set_option linter.unusedSimpArgs false
set_option linter.unusedVariables false
set_option linter.unusedSectionVars false

namespace Pico
namespace Species

variable {K : Type _} [Field K] [LinearOrder K] [IsStrictOrderedRing K] [FloorRing K]

theorem trunc_int (n : Int) : trunc (n : K) = n := by
  unfold trunc
  split <;> simp

theorem toInt_int {n : Int} (h1 : -2 ^ 31 ≤ n) (h2 : n < 2 ^ 31) : toInt (n : K) = .ok n := by
  unfold toInt
  rw [trunc_int, if_pos ⟨h1, h2⟩]

/-- Does the conversion to `int` work? -/
def Fits (x : K) : Prop := -2 ^ 31 ≤ trunc x ∧ trunc x < 2 ^ 31

theorem toInt_fits {x : K} (h : Fits x) : toInt x = .ok (trunc x) := if_pos h

theorem toU32_int {n : Int} (h0 : 0 ≤ n) (h2 : n < 2 ^ 31) : toU32 n = n.toNat := by
  unfold toU32
  rw [Int.emod_eq_of_lt h0 (by omega)]

/-- What an entry becomes. -/
def Specie.of (o : SpecieEntry K) : Specie K :=
  ⟨SMB.hashStr 1394 (o.name.map Char.toNat), o.name, toU32 (trunc o.mass), trunc o.charge, o.density, o.density, o.temperature⟩

def BeamRec.of (o : BeamEntry K) : BeamRec :=
  ⟨SMB.hashStr 18132 ((beamPrefix ++ o.name).map Char.toNat), beamPrefix ++ o.name, toU32 (trunc o.mass), trunc o.charge,
    trunc o.bunches⟩

theorem species_loop (l : List (SpecieEntry K)) (hl : ∀ o ∈ l, Fits o.mass ∧ Fits o.charge) : ∀ acc : List (Specie K),
    loop addSpecie l acc = if (∀ o ∈ l, ∀ s ∈ acc, s.name ≠ o.name) ∧ (l.map (·.name)).Nodup
      then .ok (acc ++ l.map Specie.of) else .fatal := by
  induction l with
  | nil => intro acc; simp [loop]
  | cons o l ih =>
    intro acc
    have ho := hl o List.mem_cons_self
    rw [loop_cons]
    rw [addSpecie]
    by_cases c : acc.any (fun s => s.name = o.name)
    · rw [if_pos c, if_neg]
      · rfl
      · rintro ⟨k, _⟩
        obtain ⟨s, hs, e⟩ := List.any_eq_true.mp c
        exact k o List.mem_cons_self s hs (by simpa using e)
    · rw [if_neg c, toInt_fits ho.1, Res.ok_bind, toInt_fits ho.2, Res.ok_bind, Res.ok_bind,
        ih (fun x hx => hl x (List.mem_cons_of_mem _ hx))]
      have c' : ∀ s ∈ acc, s.name ≠ o.name := by
        intro s hs e
        exact c (List.any_eq_true.mpr ⟨s, hs, by simpa using e⟩)
      by_cases d : (∀ x ∈ o :: l, ∀ s ∈ acc, s.name ≠ x.name) ∧ ((o :: l).map (·.name)).Nodup
      · rw [if_pos d, if_pos]
        · rw [List.append_assoc]; rfl
        · obtain ⟨d1, d2⟩ := d
          rw [List.map_cons, List.nodup_cons] at d2
          refine ⟨?_, d2.2⟩
          intro x hx s hs
          rcases List.mem_append.mp hs with k | k
          · exact d1 x (List.mem_cons_of_mem _ hx) s k
          · rw [List.mem_singleton.mp k]
            dsimp only
            intro e
            exact d2.1 (List.mem_map.mpr ⟨x, hx, e.symm⟩)
      · rw [if_neg d, if_neg]
        rintro ⟨k1, k2⟩
        apply d
        refine ⟨?_, ?_⟩
        · intro x hx s hs
          rcases List.mem_cons.mp hx with rfl | hx
          · exact c' s hs
          · exact k1 x hx s (List.mem_append_left _ hs)
        · rw [List.map_cons, List.nodup_cons]
          refine ⟨?_, k2⟩
          intro hm
          obtain ⟨x, hx, e⟩ := List.mem_map.mp hm
          exact k1 x hx _ (List.mem_append_right _ (List.mem_singleton.mpr rfl)) e.symm

theorem beams_loop (l : List (BeamEntry K)) (hl : ∀ o ∈ l, Fits o.mass ∧ Fits o.charge ∧ Fits o.bunches) :
    ∀ acc : List BeamRec,
    loop addBeam l acc = if (∀ o ∈ l, ∀ s ∈ acc, s.name ≠ beamPrefix ++ o.name) ∧ (l.map (·.name)).Nodup
      then .ok (acc ++ l.map BeamRec.of) else .fatal := by
  induction l with
  | nil => intro acc; simp [loop]
  | cons o l ih =>
    intro acc
    have ho := hl o List.mem_cons_self
    rw [loop_cons]
    rw [addBeam]
    by_cases c : acc.any (fun s => s.name = beamPrefix ++ o.name)
    · rw [if_pos c, if_neg]
      · rfl
      · rintro ⟨k, _⟩
        obtain ⟨s, hs, e⟩ := List.any_eq_true.mp c
        exact k o List.mem_cons_self s hs (by simpa using e)
    · rw [if_neg c, toInt_fits ho.1, Res.ok_bind, toInt_fits ho.2.1, Res.ok_bind, toInt_fits ho.2.2, Res.ok_bind, Res.ok_bind,
        ih (fun x hx => hl x (List.mem_cons_of_mem _ hx))]
      have c' : ∀ s ∈ acc, s.name ≠ beamPrefix ++ o.name := by
        intro s hs e
        exact c (List.any_eq_true.mpr ⟨s, hs, by simpa using e⟩)
      by_cases d : (∀ x ∈ o :: l, ∀ s ∈ acc, s.name ≠ beamPrefix ++ x.name) ∧ ((o :: l).map (·.name)).Nodup
      · rw [if_pos d, if_pos]
        · rw [List.append_assoc]; rfl
        · obtain ⟨d1, d2⟩ := d
          rw [List.map_cons, List.nodup_cons] at d2
          refine ⟨?_, d2.2⟩
          intro x hx s hs
          rcases List.mem_append.mp hs with k | k
          · exact d1 x (List.mem_cons_of_mem _ hx) s k
          · rw [List.mem_singleton.mp k]
            dsimp only
            intro e
            exact d2.1 (List.mem_map.mpr ⟨x, hx, (List.append_cancel_left e).symm⟩)
      · rw [if_neg d, if_neg]
        rintro ⟨k1, k2⟩
        apply d
        refine ⟨?_, ?_⟩
        · intro x hx s hs
          rcases List.mem_cons.mp hx with rfl | hx
          · exact c' s hs
          · exact k1 x hx s (List.mem_append_left _ hs)
        · rw [List.map_cons, List.nodup_cons]
          refine ⟨?_, k2⟩
          intro hm
          obtain ⟨x, hx, e⟩ := List.mem_map.mp hm
          exact k1 x hx _ (List.mem_append_right _ (List.mem_singleton.mpr rfl)) (congrArg (beamPrefix ++ ·) e.symm)

/-! ## C89 -/

/-- **Configured values are used.**  If masses and charges are integers (in units of those of the electron) that fit, masses
not negative, and names are different, the configuration is accepted and every domain makes for every entry, in order, a
species of that name with that charge, mass and temperature and with the configured density at both of its ends. -/
theorem C89_partial (ec em : K) (l : List (SpecieEntry K)) (hn : (l.map (·.name)).Nodup) (m : SpecieEntry K → Nat)
    (c : SpecieEntry K → Int) (hm : ∀ o ∈ l, o.mass = m o ∧ m o < 2 ^ 31)
    (hc : ∀ o ∈ l, o.charge = c o ∧ -2 ^ 31 ≤ c o ∧ c o < 2 ^ 31) :
    ∃ ss, initParticles l = .ok ss ∧ ∀ size dz : K, ∀ z0 z1 : Nat, ss.map (makeSpecie ec em size dz z0 z1) =
      l.map fun o => ⟨o.name, o.charge * ec, o.mass * em, o.density, o.density, o.temperature⟩ := by
  have f : ∀ o ∈ l, Fits o.mass ∧ Fits o.charge := by
    intro o ho
    obtain ⟨a, b⟩ := hm o ho
    obtain ⟨d, e, g⟩ := hc o ho
    unfold Fits
    have : (o.mass : K) = ((m o : Int) : K) := by rw [a]; push_cast; rfl
    rw [this, trunc_int, d, trunc_int]
    omega
  refine ⟨l.map Specie.of, ?_, ?_⟩
  · unfold initParticles
    rw [species_loop l f, if_pos ⟨fun _ _ _ h => absurd h List.not_mem_nil, hn⟩]
    rfl
  · intro size dz z0 z1
    rw [List.map_map]
    apply List.map_congr_left
    intro o ho
    obtain ⟨a, b⟩ := hm o ho
    obtain ⟨d, e, g⟩ := hc o ho
    have a' : (o.mass : K) = ((m o : Int) : K) := by rw [a]; push_cast; rfl
    simp only [Function.comp, makeSpecie, Specie.of, Place.localDensity, sub_self, zero_div, zero_mul, add_zero]
    rw [a', trunc_int, toU32_int (by omega) (by omega), d, trunc_int]
    simp

/-- The density of every species, the same at both ends of every domain, and the temperature are the configured ones
for every accepted configuration. -/
theorem C89_density (ec em : K) (l : List (SpecieEntry K)) (ss : List (Specie K)) (h : initParticles l = .ok ss)
    (size dz : K) (z0 z1 : Nat) :
    (ss.map (makeSpecie ec em size dz z0 z1)).map (fun x => (x.name, x.left, x.right, x.temperature)) =
      l.map fun o => (o.name, o.density, o.density, o.temperature) := by
  have gen : ∀ l : List (SpecieEntry K), ∀ acc ss : List (Specie K), loop addSpecie l acc = .ok ss →
      ∃ t, ss = acc ++ t ∧ (t.map (makeSpecie ec em size dz z0 z1)).map (fun x => (x.name, x.left, x.right, x.temperature)) =
        l.map fun o => (o.name, o.density, o.density, o.temperature) := by
    intro l
    induction l with
    | nil =>
      intro acc ss h
      cases h
      exact ⟨[], (List.append_nil _).symm, rfl⟩
    | cons o l ih =>
      intro acc ss h
      rw [loop_cons] at h
      rw [addSpecie] at h
      split at h
      · cases h
      · cases e1 : toInt o.mass with
        | fatal => rw [e1] at h; cases h
        | ub => rw [e1] at h; cases h
        | ok m =>
          cases e2 : toInt o.charge with
          | fatal => rw [e1, e2] at h; cases h
          | ub => rw [e1, e2] at h; cases h
          | ok c =>
            rw [e1, Res.ok_bind, e2, Res.ok_bind, Res.ok_bind] at h
            obtain ⟨t, ht, e⟩ := ih _ ss h
            refine ⟨_ :: t, by rw [ht, List.append_assoc]; rfl, ?_⟩
            simp only [List.map_cons, e, makeSpecie, Place.localDensity, sub_self, zero_div, zero_mul, add_zero]
  obtain ⟨t, rfl, e⟩ := gen l [] ss h
  exact e

/-- **Fractions are cut off.**  A mass that is not an integer becomes the next smaller integer, so the particles are
too light; a mass below one becomes zero. -/
theorem C89_mass_fails (o : SpecieEntry K) (hc : Fits o.charge) (h0 : 0 ≤ o.mass) (h1 : o.mass < 2 ^ 31)
    (hf : ∀ n : Int, o.mass ≠ n) :
    ∃ s, initParticles [o] = .ok [s] ∧ (s.mass : K) < o.mass ∧ o.mass < s.mass + 1 ∧ (o.mass < 1 → s.mass = 0) := by
  have t : trunc o.mass = ⌊o.mass⌋ := if_pos h0
  have f0 : 0 ≤ ⌊o.mass⌋ := Int.floor_nonneg.mpr h0
  have f1 : ⌊o.mass⌋ < 2 ^ 31 := Int.floor_lt.mpr (by push_cast; norm_num at h1 ⊢; exact h1)
  have fm : Fits o.mass := by unfold Fits; rw [t]; omega
  refine ⟨Specie.of o, ?_, ?_⟩
  · unfold initParticles
    rw [species_loop [o] (by intro x hx; rw [List.mem_singleton.mp hx]; exact ⟨fm, hc⟩),
      if_pos ⟨fun _ _ _ h => absurd h List.not_mem_nil, by simp⟩]
    rfl
  · have e : (Specie.of o).mass = ⌊o.mass⌋.toNat := by
      unfold Specie.of
      dsimp only
      rw [t, toU32_int f0 f1]
    have e' : (((Specie.of o).mass : Nat) : K) = (⌊o.mass⌋ : K) := by
      rw [e]
      have : ((⌊o.mass⌋.toNat : Int) : K) = (⌊o.mass⌋ : K) := by rw [Int.toNat_of_nonneg f0]
      exact_mod_cast this
    refine ⟨?_, ?_, ?_⟩
    · rw [e']
      exact lt_of_le_of_ne (Int.floor_le _) (fun k => hf _ k.symm)
    · rw [e']
      exact Int.lt_floor_add_one _
    · intro h
      have : ⌊o.mass⌋ < 1 := Int.floor_lt.mpr (by push_cast; exact h)
      rw [e]
      omega

/-- A charge of less than one elementary charge becomes none. -/
theorem C89_charge_fails (o : SpecieEntry K) (hm : Fits o.mass) (h0 : -1 < o.charge) (h1 : o.charge < 1) :
    ∃ s, initParticles [o] = .ok [s] ∧ s.charge = 0 := by
  have t : trunc o.charge = 0 := by
    unfold trunc
    split
    · next h => rw [Int.floor_eq_zero_iff]; exact ⟨h, h1⟩
    · next h =>
      rw [Int.ceil_eq_iff]
      push_cast
      exact ⟨by linarith, (not_le.mp h).le⟩
  have fc : Fits o.charge := by unfold Fits; rw [t]; norm_num
  refine ⟨Specie.of o, ?_, t⟩
  unfold initParticles
  rw [species_loop [o] (by intro x hx; rw [List.mem_singleton.mp hx]; exact ⟨hm, fc⟩),
    if_pos ⟨fun _ _ _ h => absurd h List.not_mem_nil, by simp⟩]
  rfl

/-- A negative mass is not rejected: it becomes one above two thousand millions. -/
theorem C89_negative_fails (o : SpecieEntry K) (hc : Fits o.charge) {n : Nat} (hn : 0 < n) (hn' : n ≤ 2 ^ 31)
    (e : o.mass = -(n : K)) : ∃ s, initParticles [o] = .ok [s] ∧ s.mass = 2 ^ 32 - n := by
  have t : trunc o.mass = -(n : Int) := by
    rw [e]
    have : (-(n : K)) = ((-(n : Int) : Int) : K) := by push_cast; rfl
    rw [this, trunc_int]
  have fm : Fits o.mass := by unfold Fits; rw [t]; omega
  refine ⟨Specie.of o, ?_, ?_⟩
  · unfold initParticles
    rw [species_loop [o] (by intro x hx; rw [List.mem_singleton.mp hx]; exact ⟨fm, hc⟩),
      if_pos ⟨fun _ _ _ h => absurd h List.not_mem_nil, by simp⟩]
    rfl
  · unfold Specie.of
    dsimp only
    rw [t]
    unfold toU32
    omega

/-! ## C90 -/

/-- **Repeated names are rejected**, among the species and among the beams, and nothing else is: given numbers that
fit, the configuration is accepted if and only if no two species and no two beams have the same name. -/
theorem C90_unique (l : List (SpecieEntry K)) (b : List (BeamEntry K)) (hl : ∀ o ∈ l, Fits o.mass ∧ Fits o.charge)
    (hb : ∀ o ∈ b, Fits o.mass ∧ Fits o.charge ∧ Fits o.bunches) :
    ((∃ ss, initParticles l = .ok ss) ↔ (l.map (·.name)).Nodup) ∧
    ((∃ bs, initBeams b = .ok bs) ↔ (b.map (·.name)).Nodup) ∧
    (¬ (l.map (·.name)).Nodup → initParticles l = .fatal) ∧ (¬ (b.map (·.name)).Nodup → initBeams b = .fatal) := by
  have e1 : initParticles l = if (l.map (·.name)).Nodup then .ok (l.map Specie.of) else .fatal := by
    unfold initParticles
    rw [species_loop l hl]
    by_cases c : (l.map (·.name)).Nodup
    · rw [if_pos c, if_pos ⟨fun _ _ _ h => absurd h List.not_mem_nil, c⟩]; rfl
    · rw [if_neg c, if_neg (fun k => c k.2)]
  have e2 : initBeams b = if (b.map (·.name)).Nodup then .ok (b.map BeamRec.of) else .fatal := by
    unfold initBeams
    rw [beams_loop b hb]
    by_cases c : (b.map (·.name)).Nodup
    · rw [if_pos c, if_pos ⟨fun _ _ _ h => absurd h List.not_mem_nil, c⟩]; rfl
    · rw [if_neg c, if_neg (fun k => c k.2)]
  refine ⟨?_, ?_, ?_, ?_⟩
  · rw [e1]
    by_cases c : (l.map (·.name)).Nodup
    · rw [if_pos c]; exact ⟨fun _ => c, fun _ => ⟨_, rfl⟩⟩
    · rw [if_neg c]; exact ⟨fun ⟨_, k⟩ => (nomatch k), fun k => absurd k c⟩
  · rw [e2]
    by_cases c : (b.map (·.name)).Nodup
    · rw [if_pos c]; exact ⟨fun _ => c, fun _ => ⟨_, rfl⟩⟩
    · rw [if_neg c]; exact ⟨fun ⟨_, k⟩ => (nomatch k), fun k => absurd k c⟩
  · intro c
    rw [e1, if_neg c]
  · intro c
    rw [e2, if_neg c]

/-- Which species a name stands for: the last one of that name. -/
theorem lookup_spec (names : List (List Char)) (n : List Char) :
    match Dump.lookup names n with
    | none => n ∉ names
    | some k => names[k]? = some n ∧ ∀ j, k < j → names[j]? ≠ some n := by
  unfold Dump.lookup
  induction names using List.reverseRecOn with
  | nil => simp
  | append_singleton l a ih =>
    rw [List.zipIdx_append, List.foldl_append]
    simp only [List.zipIdx_cons, List.zipIdx_nil, List.foldl_cons, List.foldl_nil, Nat.zero_add]
    by_cases c : a = n
    · rw [if_pos c]
      dsimp only
      refine ⟨by rw [c]; simp, ?_⟩
      intro j hj
      rw [List.getElem?_eq_none (by simp; omega)]
      exact fun h => nomatch h
    · rw [if_neg c]
      cases hk : List.foldl (fun acc (p : List Char × Nat) => if p.1 = n then some p.2 else acc) none l.zipIdx with
      | none =>
        rw [hk] at ih
        dsimp only at ih ⊢
        intro hm
        rcases List.mem_append.mp hm with h | h
        · exact ih h
        · exact c (List.mem_singleton.mp h).symm
      | some k =>
        rw [hk] at ih
        dsimp only at ih ⊢
        obtain ⟨h1, h2⟩ := ih
        have hlt : k < l.length := by
          by_contra hn
          rw [List.getElem?_eq_none (by omega)] at h1
          cases h1
        refine ⟨by rw [List.getElem?_append_left hlt]; exact h1, ?_⟩
        intro j hj
        by_cases hj' : j < l.length
        · rw [List.getElem?_append_left hj']
          exact h2 j hj
        · rw [List.getElem?_append_right (by omega)]
          intro e
          rcases Nat.eq_or_lt_of_not_lt hj' with h | h
          · rw [← h] at e
            simp at e
            exact c e
          · rw [List.getElem?_eq_none (by simp; omega)] at e
            cases e

/-- **A name stands for the entry of that name**, if no species is called like a beam with the prefix `beam_`: a probe of
species `n` finds the species `n`, and a probe of `beam_n` finds the beam `n` if the beam has bunches; other names find
nothing.  Every domain has the same species and beams in the same order. -/
theorem C90_lookup_partial (l : List (SpecieEntry K)) (b : List (BeamEntry K)) (hl : ∀ o ∈ l, Fits o.mass ∧ Fits o.charge)
    (hb : ∀ o ∈ b, Fits o.mass ∧ Fits o.charge ∧ Fits o.bunches) (nl : (l.map (·.name)).Nodup) (nb : (b.map (·.name)).Nodup)
    (clash : ∀ o ∈ l, ∀ p ∈ b, o.name ≠ beamPrefix ++ p.name) :
    ∃ ss bs, initParticles l = .ok ss ∧ initBeams b = .ok bs ∧
      (domainNames ss bs).Nodup ∧
      (∀ k o, l[k]? = some o → Dump.lookup (domainNames ss bs) o.name = some k) ∧
      (∀ p ∈ b, 1 ≤ p.bunches → ∃ k, Dump.lookup (domainNames ss bs) (beamPrefix ++ p.name) = some k ∧ l.length ≤ k) ∧
      (∀ p ∈ b, p.bunches < 1 → Dump.lookup (domainNames ss bs) (beamPrefix ++ p.name) = none) ∧
      (∀ n, (∀ o ∈ l, o.name ≠ n) → (∀ p ∈ b, beamPrefix ++ p.name ≠ n) → Dump.lookup (domainNames ss bs) n = none) := by
  have e1 : initParticles l = .ok (l.map Specie.of) := by
    unfold initParticles
    rw [species_loop l hl, if_pos ⟨fun _ _ _ h => absurd h List.not_mem_nil, nl⟩]
    rfl
  have e2 : initBeams b = .ok (b.map BeamRec.of) := by
    unfold initBeams
    rw [beams_loop b hb, if_pos ⟨fun _ _ _ h => absurd h List.not_mem_nil, nb⟩]
    rfl
  have dn : domainNames (l.map Specie.of) (b.map BeamRec.of) =
      l.map (·.name) ++ (b.filter fun p => 0 < trunc p.bunches).map (fun p => beamPrefix ++ p.name) := by
    unfold domainNames
    rw [List.map_map, List.filter_map, List.map_map]
    rfl
  have tb : ∀ p : BeamEntry K, 0 < trunc p.bunches ↔ 1 ≤ p.bunches := by
    intro p
    unfold trunc
    split
    · next h => rw [Int.floor_pos]
    · next h =>
      have h := not_le.mp h
      constructor
      · intro k
        have : ⌈p.bunches⌉ ≤ 0 := Int.ceil_le.mpr (by push_cast; exact h.le)
        omega
      · intro k
        linarith
  have nd : (domainNames (l.map Specie.of) (b.map BeamRec.of)).Nodup := by
    rw [dn, List.nodup_append]
    refine ⟨nl, ?_, ?_⟩
    · have : (b.filter fun p => 0 < trunc p.bunches).map (fun p => beamPrefix ++ p.name) =
          ((b.filter fun p => 0 < trunc p.bunches).map (·.name)).map (beamPrefix ++ ·) := by rw [List.map_map]; rfl
      rw [this]
      refine List.Nodup.map (fun _ _ h => List.append_cancel_left h) ?_
      exact nb.sublist (List.Sublist.map _ List.filter_sublist)
    · intro x hx y hy e
      obtain ⟨o, ho, rfl⟩ := List.mem_map.mp hx
      obtain ⟨p, hp, rfl⟩ := List.mem_map.mp hy
      exact clash o ho p (List.mem_filter.mp hp).1 e
  refine ⟨_, _, e1, e2, nd, ?_, ?_, ?_, ?_⟩
  · intro k o hk
    have s := lookup_spec (domainNames (l.map Specie.of) (b.map BeamRec.of)) o.name
    have hlt : k < l.length := by
      by_contra hn
      rw [List.getElem?_eq_none (by omega)] at hk
      cases hk
    have at_k : (domainNames (l.map Specie.of) (b.map BeamRec.of))[k]? = some o.name := by
      rw [dn, List.getElem?_append_left (by simp; omega), List.getElem?_map, hk]
      rfl
    cases hq : Dump.lookup (domainNames (l.map Specie.of) (b.map BeamRec.of)) o.name with
    | none =>
      rw [hq] at s
      exact absurd (List.mem_of_getElem? at_k) s
    | some q =>
      rw [hq] at s
      dsimp only at s
      congr 1
      have h1 : q < (domainNames (l.map Specie.of) (b.map BeamRec.of)).length := by
        by_contra hn
        rw [List.getElem?_eq_none (by omega)] at s
        cases s.1
      exact (List.getElem?_inj h1 nd).mp (s.1.trans at_k.symm)
  · intro p hp h1
    have s := lookup_spec (domainNames (l.map Specie.of) (b.map BeamRec.of)) (beamPrefix ++ p.name)
    have mem : beamPrefix ++ p.name ∈ domainNames (l.map Specie.of) (b.map BeamRec.of) := by
      rw [dn]
      exact List.mem_append_right _ (List.mem_map.mpr ⟨p, List.mem_filter.mpr ⟨hp, by simpa using (tb p).mpr h1⟩, rfl⟩)
    cases hq : Dump.lookup (domainNames (l.map Specie.of) (b.map BeamRec.of)) (beamPrefix ++ p.name) with
    | none => rw [hq] at s; exact absurd mem s
    | some q =>
      rw [hq] at s
      dsimp only at s
      refine ⟨q, rfl, ?_⟩
      by_contra hn
      have : (domainNames (l.map Specie.of) (b.map BeamRec.of))[q]? = (l.map (·.name))[q]? := by
        rw [dn, List.getElem?_append_left (by simp; omega)]
      rw [this] at s
      obtain ⟨o, ho, e⟩ := List.mem_map.mp (List.mem_of_getElem? s.1)
      exact clash o ho p hp e
  · intro p hp h1
    have s := lookup_spec (domainNames (l.map Specie.of) (b.map BeamRec.of)) (beamPrefix ++ p.name)
    cases hq : Dump.lookup (domainNames (l.map Specie.of) (b.map BeamRec.of)) (beamPrefix ++ p.name) with
    | none => rfl
    | some q =>
      rw [hq] at s
      exfalso
      have m := List.mem_of_getElem? s.1
      rw [dn] at m
      rcases List.mem_append.mp m with m | m
      · obtain ⟨o, ho, e⟩ := List.mem_map.mp m
        exact clash o ho p hp e
      · obtain ⟨p', hp', e⟩ := List.mem_map.mp m
        obtain ⟨hp1, hp2⟩ := List.mem_filter.mp hp'
        have e' : p'.name = p.name := List.append_cancel_left e
        have : p' = p := List.inj_on_of_nodup_map nb hp1 hp e'
        subst this
        have := (tb p').mp (by simpa using hp2)
        linarith
  · intro n h1 h2
    have s := lookup_spec (domainNames (l.map Specie.of) (b.map BeamRec.of)) n
    cases hq : Dump.lookup (domainNames (l.map Specie.of) (b.map BeamRec.of)) n with
    | none => rfl
    | some q =>
      rw [hq] at s
      exfalso
      have m := List.mem_of_getElem? s.1
      rw [dn] at m
      rcases List.mem_append.mp m with m | m
      · obtain ⟨o, ho, e⟩ := List.mem_map.mp m
        exact h1 o ho e
      · obtain ⟨p', hp', e⟩ := List.mem_map.mp m
        exact h2 p' (List.mem_filter.mp hp').1 e

/-- **A species called like a beam** is accepted and hidden by the beam: probes of the species show the beam. -/
theorem C90_clash_fails (l : List (SpecieEntry K)) (p : BeamEntry K) (hl : ∀ o ∈ l, Fits o.mass ∧ Fits o.charge)
    (hp : Fits p.mass ∧ Fits p.charge ∧ Fits p.bunches) (nl : (l.map (·.name)).Nodup) {o : SpecieEntry K} (ho : o ∈ l)
    (e : o.name = beamPrefix ++ p.name) (hb : 1 ≤ p.bunches) :
    ∃ ss bs, initParticles l = .ok ss ∧ initBeams [p] = .ok bs ∧
      Dump.lookup (domainNames ss bs) o.name = some l.length := by
  have e1 : initParticles l = .ok (l.map Specie.of) := by
    unfold initParticles
    rw [species_loop l hl, if_pos ⟨fun _ _ _ h => absurd h List.not_mem_nil, nl⟩]
    rfl
  have e2 : initBeams [p] = .ok [BeamRec.of p] := by
    unfold initBeams
    rw [beams_loop [p] (by intro x hx; rw [List.mem_singleton.mp hx]; exact hp),
      if_pos ⟨fun _ _ _ h => absurd h List.not_mem_nil, by simp⟩]
    rfl
  refine ⟨_, _, e1, e2, ?_⟩
  have tb : 0 < (BeamRec.of p).bunches := by
    unfold BeamRec.of trunc
    dsimp only
    rw [if_pos (by linarith), Int.floor_pos]
    exact hb
  have dn : domainNames (l.map Specie.of) [BeamRec.of p] = l.map (·.name) ++ [o.name] := by
    unfold domainNames
    rw [List.map_map, List.filter_cons_of_pos (by simpa using tb), e]
    rfl
  rw [dn]
  unfold Dump.lookup
  rw [List.zipIdx_append, List.foldl_append]
  simp

/-! ### Examples -/

def exEl : SpecieEntry ℚ := ⟨['e'], 1, -1, 1000, 1/2⟩
def exIon : SpecieEntry ℚ := ⟨['i'], 1836, 1, 1000, 1/10⟩
def exHalf : SpecieEntry ℚ := ⟨['h'], 1/2, 1/3, 1000, 1⟩
def exBeam : BeamEntry ℚ := ⟨['e'], 1, -1, 3⟩

example : ∃ ss, initParticles [exEl, exIon] = .ok ss ∧ ∀ size dz : ℚ, ∀ z0 z1 : Nat,
    ss.map (makeSpecie 1 2 size dz z0 z1) = [⟨['e'], -1, 2, 1000, 1000, 1/2⟩, ⟨['i'], 1, 3672, 1000, 1000, 1/10⟩] := by
  obtain ⟨ss, h, k⟩ := C89_partial (1 : ℚ) 2 [exEl, exIon] (by decide) (fun o => ⌊o.mass⌋.toNat)
    (fun o => ⌊o.charge⌋)
    (by
      intro o ho
      simp only [List.mem_cons, List.not_mem_nil, or_false] at ho
      rcases ho with rfl | rfl <;> decide +kernel)
    (by
      intro o ho
      simp only [List.mem_cons, List.not_mem_nil, or_false] at ho
      rcases ho with rfl | rfl <;> decide +kernel)
  refine ⟨ss, h, fun size dz z0 z1 => ?_⟩
  rw [k]
  norm_num [exEl, exIon]

theorem exFits : Fits exEl.mass ∧ Fits exEl.charge ∧ Fits exIon.mass ∧ Fits exIon.charge ∧ Fits exHalf.mass ∧
    Fits exHalf.charge ∧ Fits exBeam.bunches := by
  unfold Fits
  decide +kernel

-- a mass of one half
example : ∃ s, initParticles [exHalf] = .ok [s] ∧ s.mass = 0 ∧ s.charge = 0 := by
  obtain ⟨s, h, _, _, k⟩ := C89_mass_fails exHalf exFits.2.2.2.2.2.1 (by norm_num [exHalf]) (by norm_num [exHalf])
    (by
      intro n h
      have h2 : (1 : ℚ) = ((2 * n : Int) : ℚ) := by
        have : (1/2 : ℚ) = n := h
        push_cast
        linarith
      have h3 : (1 : Int) = 2 * n := by exact_mod_cast h2
      omega)
  obtain ⟨s', h', k'⟩ := C89_charge_fails exHalf exFits.2.2.2.2.1 (by norm_num [exHalf]) (by norm_num [exHalf])
  rw [h] at h'
  have : s = s' := by
    have := Res.ok.inj h'
    simpa using this
  subst this
  exact ⟨s, h, k (by norm_num [exHalf]), k'⟩

-- a probe of the species and one of the beam
example : ∃ ss bs, initParticles [exEl, exIon] = .ok ss ∧ initBeams [exBeam] = .ok bs ∧
    Dump.lookup (domainNames ss bs) ['i'] = some 1 := by
  obtain ⟨ss, bs, h1, h2, _, k, _⟩ := C90_lookup_partial [exEl, exIon] [exBeam]
    (by
      intro o ho
      simp only [List.mem_cons, List.not_mem_nil, or_false] at ho
      rcases ho with rfl | rfl
      · exact ⟨exFits.1, exFits.2.1⟩
      · exact ⟨exFits.2.2.1, exFits.2.2.2.1⟩)
    (by
      intro o ho
      rw [List.mem_singleton.mp ho]
      exact ⟨exFits.1, exFits.2.1, exFits.2.2.2.2.2.2⟩)
    (by decide) (by decide)
    (by
      intro o ho p hp
      rw [List.mem_singleton.mp hp]
      simp only [List.mem_cons, List.not_mem_nil, or_false] at ho
      rcases ho with rfl | rfl <;> decide)
  exact ⟨ss, bs, h1, h2, k 1 exIon rfl⟩

-- a species with the name of a beam
example : ∃ ss bs, initParticles [{ exEl with name := beamPrefix ++ ['e'] }, exIon] = .ok ss ∧ initBeams [exBeam] = .ok bs ∧
    Dump.lookup (domainNames ss bs) (beamPrefix ++ ['e']) = some 2 := by
  exact C90_clash_fails [{ exEl with name := beamPrefix ++ ['e'] }, exIon] exBeam
    (by
      intro o ho
      simp only [List.mem_cons, List.not_mem_nil, or_false] at ho
      rcases ho with rfl | rfl
      · exact ⟨exFits.1, exFits.2.1⟩
      · exact ⟨exFits.2.2.1, exFits.2.2.2.1⟩)
    ⟨exFits.1, exFits.2.1, exFits.2.2.2.2.2.2⟩ (by decide) (o := { exEl with name := beamPrefix ++ ['e'] }) (by simp) rfl
    (by norm_num [exBeam])

end Species
end Pico
