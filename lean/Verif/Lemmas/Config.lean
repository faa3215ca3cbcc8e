import Verif.Spec.Config
import Verif.Lemmas.Base
import Verif.Lemmas.Dump

/-!
# Lemmas about the reading of the configuration
-/

set_option linter.unusedSimpArgs false
set_option linter.unusedSectionVars false

namespace Pico
namespace Config

open Species Probe GeoCfg

variable {K : Type}

theorem bind_iff {α β : Type _} {x : Res α} {f : α → Res β} {b : β} :
    (x >>= f) = .ok b ↔ ∃ a, x = .ok a ∧ f a = .ok b := by
  cases x with
  | ok a => simp
  | fatal => simp
  | ub => simp

theorem obj_iff {v : Json K} {o : List (String × Json K)} : v.toObj = .ok o ↔ v = .obj o := by
  cases v <;> simp [Json.toObj]

theorem key_obj {l : List (String × Json K)} {k : String} {o} : objAt l k = .ok o ↔ look l k = some (.obj o) := by
  unfold objAt key
  cases h : look l k with
  | none => simp [Json.toObj]
  | some v => cases v <;> simp [Json.toObj]

theorem key_arr {l : List (String × Json K)} {k : String} {o} : arrAt l k = .ok o ↔ look l k = some (.arr o) := by
  unfold arrAt key
  cases h : look l k with
  | none => simp [Json.toArr]
  | some v => cases v <;> simp [Json.toArr]

theorem key_num {l : List (String × Json K)} {k : String} {x} : numAt l k = .ok x ↔ look l k = some (.num x) := by
  unfold numAt key
  cases h : look l k with
  | none => simp [Json.toNum]
  | some v => cases v <;> simp [Json.toNum]

theorem key_str {l : List (String × Json K)} {k : String} {x} : strAt l k = .ok x ↔ look l k = some (.str x) := by
  unfold strAt key
  cases h : look l k with
  | none => simp [Json.toStr]
  | some v => cases v <;> simp [Json.toStr]

theorem key_bool {l : List (String × Json K)} {k : String} {x} : boolAt l k = .ok x ↔ look l k = some (.bool x) := by
  unfold boolAt key
  cases h : look l k with
  | none => simp [Json.toBool]
  | some v => cases v <;> simp [Json.toBool]

theorem look_put (l : List (String × Json K)) (k : String) (v : Json K) : look (put l k v) k = some v := by
  induction l with
  | nil => simp [put, look]
  | cons p l ih =>
    obtain ⟨k', w⟩ := p
    unfold put
    split_ifs with h
    · simp [look, h]
    · simp [look, h, ih]

theorem look_put_ne (l : List (String × Json K)) (k k' : String) (v : Json K) (h : k' ≠ k) :
    look (put l k v) k' = look l k' := by
  induction l with
  | nil => simp [put, look, Ne.symm h]
  | cons p l ih =>
    obtain ⟨a, w⟩ := p
    unfold put
    split_ifs with e
    · simp [look, e, Ne.symm h]
    · by_cases e' : a = k' <;> simp [look, e', ih]

theorem at_nil (v : Json K) : v.at [] = some v := by
  cases v <;> rfl

theorem at_obj (l : List (String × Json K)) (k : String) (p : List String) :
    (Json.obj l).at (k :: p) = (look l k).bind fun v => v.at p := rfl

theorem at_one (l : List (String × Json K)) (k : String) : (Json.obj l).at [k] = look l k := by
  rw [at_obj]
  cases look l k <;> simp [at_nil]

/-- A path leads through objects. -/
theorem at_cons {v w : Json K} {k : String} {p : List String} (h : v.at (k :: p) = some w) :
    ∃ l x, v = .obj l ∧ look l k = some x ∧ x.at p = some w := by
  cases v with
  | obj l =>
    rw [at_obj] at h
    cases e : look l k with
    | none => simp [e] at h
    | some x => exact ⟨l, x, rfl, e, by simpa [e] using h⟩
  | _ => simp [Json.at] at h

theorem each_iff {α β : Type _} {f : α → Res β} {l : List α} {m : List β} :
    each f l = .ok m ↔ List.Forall₂ (fun a b => f a = .ok b) l m := by
  induction l generalizing m with
  | nil => cases m <;> simp [each]
  | cons a l ih =>
    simp only [each, bind_iff]
    constructor
    · rintro ⟨b, hb, bs, hbs, e⟩
      cases e
      exact .cons hb (ih.1 hbs)
    · intro h
      cases h with
      | cons hb hbs => exact ⟨_, hb, _, ih.2 hbs, rfl⟩

section
variable [Field K] [LinearOrder K] [IsStrictOrderedRing K]

theorem cut_det {x : K} {n m : Int} (h : Cut x n) (h' : Cut x m) : n = m := by
  unfold Cut at h h'
  have key : ∀ {a c : Int}, (a : K) < c + 1 → a ≤ c := by
    intro a c hh
    have : (a : K) < ((c + 1 : Int) : K) := by push_cast; exact hh
    have := Int.cast_lt.1 this
    omega
  split_ifs at h h' with h0
  · exact le_antisymm (key (lt_of_le_of_lt h.1 h'.2)) (key (lt_of_le_of_lt h'.1 h.2))
  · exact le_antisymm (key (by linarith [h.1, h'.2])) (key (by linarith [h'.1, h.2]))

variable [FloorRing K]

theorem cut_trunc (x : K) : Cut x (trunc x) := by
  unfold Cut trunc
  split_ifs with h
  · exact ⟨Int.floor_le x, Int.lt_floor_add_one x⟩
  · exact ⟨by have := Int.ceil_lt_add_one x; linarith, Int.le_ceil x⟩

theorem toInt_iff {x : K} {n : Int} : toInt x = .ok n ↔ Cut x n ∧ -2 ^ 31 ≤ n ∧ n < 2 ^ 31 := by
  unfold toInt
  constructor
  · intro h
    split_ifs at h with hh
    cases h
    exact ⟨cut_trunc x, hh⟩
  · rintro ⟨hc, hh⟩
    have := cut_det hc (cut_trunc x)
    subst this
    rw [if_pos hh]

theorem cut_floor {x : K} (h : -1 < x) : Cut x (⌊x⌋₊ : Int) := by
  unfold Cut
  split_ifs with h0
  · exact ⟨by exact_mod_cast Nat.floor_le h0, by exact_mod_cast Nat.lt_floor_add_one x⟩
  · have e : ⌊x⌋₊ = 0 := Nat.floor_of_nonpos (le_of_lt (not_le.1 h0))
    rw [e]
    push_cast
    exact ⟨by linarith, le_of_lt (not_le.1 h0)⟩

theorem cut_low {x : K} {n : Nat} (h : Cut x (n : Int)) : -1 < x := by
  unfold Cut at h
  have hn : (0 : K) ≤ (n : K) := Nat.cast_nonneg n
  split_ifs at h with h0
  · linarith
  · have := h.1
    push_cast at this
    linarith

theorem toNat_iff {w : Nat} {x : K} {n : Nat} :
    (if x ≤ -1 ∨ (2 : K) ^ w ≤ x then Res.ub else .ok ⌊x⌋₊) = .ok n ↔ Cut x n ∧ n < 2 ^ w := by
  constructor
  · intro h
    split_ifs at h with hh
    rw [not_or, not_le, not_le] at hh
    cases h
    refine ⟨cut_floor hh.1, ?_⟩
    by_cases h0 : 0 ≤ x
    · have : ((⌊x⌋₊ : Nat) : K) < ((2 ^ w : Nat) : K) := by
        push_cast
        exact lt_of_le_of_lt (Nat.floor_le h0) hh.2
      exact_mod_cast this
    · rw [Nat.floor_of_nonpos (le_of_lt (not_le.1 h0))]
      positivity
  · rintro ⟨hc, hn⟩
    have h1 := cut_low hc
    have e := cut_det hc (cut_floor h1)
    have e' : n = ⌊x⌋₊ := by exact_mod_cast e
    have h2 : x < 2 ^ w := by
      by_contra hh
      rw [not_lt] at hh
      have h0 : 0 ≤ x := le_trans (by positivity) hh
      have : ((2 ^ w : Nat) : K) ≤ x := by push_cast; exact hh
      have := Nat.le_floor this
      omega
    rw [if_neg (by rw [not_or, not_le, not_le]; exact ⟨h1, h2⟩), e']

theorem toSize_iff {x : K} {n : Nat} : toSize x = .ok n ↔ Cut x n ∧ n < 2 ^ 64 := by
  unfold toSize
  exact toNat_iff

theorem toUInt_iff {x : K} {n : Nat} : Limits.toUInt x = .ok n ↔ Cut x n ∧ n < 2 ^ 32 := by
  unfold Limits.toUInt
  exact toNat_iff

/-! ### The sections -/

theorem specie_iff {v : Json K} {acc r : List (Specie K)} :
    readSpecie v acc = .ok r ↔ ∃ s, SpecieSays v s ∧ (∀ t ∈ acc, t.name ≠ s.name) ∧ r = acc ++ [s] := by
  unfold readSpecie
  simp only [bind_iff, obj_iff, key_str]
  constructor
  · rintro ⟨o, rfl, n, hn, h⟩
    split_ifs at h with ha
    simp only [bind_iff, key_num, toInt_iff] at h
    obtain ⟨xm, hm, m, cm, xc, hc, c, cc, d, hd, t, ht, e⟩ := h
    cases e
    refine ⟨_, ⟨?_, ⟨m, ⟨xm, ?_, cm.1, cm.2⟩, rfl⟩, ⟨xc, ?_, cc.1, cc.2⟩, ?_, rfl, ?_, rfl⟩, ?_, rfl⟩
    · rw [at_one]; exact hn
    · rw [at_one]; exact hm
    · rw [at_one]; exact hc
    · rw [at_one]; exact hd
    · rw [at_one]; exact ht
    · intro t ht e
      exact ha (List.any_eq_true.2 ⟨t, ht, decide_eq_true e⟩)
  · rintro ⟨s, h, ha, rfl⟩
    obtain ⟨o, x, rfl, -, -⟩ := at_cons h.name
    obtain ⟨m, ⟨xm, hm, cm⟩, em⟩ := h.mass
    obtain ⟨xc, hc, cc⟩ := h.charge
    have hn := h.name
    have hd := h.left
    have ht := h.temperature
    rw [at_one] at hn hd ht hm hc
    refine ⟨o, rfl, s.name, hn, ?_⟩
    rw [if_neg (by
      intro hh
      obtain ⟨t, ht, e⟩ := List.any_eq_true.1 hh
      exact ha t ht (of_decide_eq_true e))]
    simp only [bind_iff, key_num, toInt_iff]
    refine ⟨xm, hm, m, cm, xc, hc, s.charge, cc, s.left, hd, s.temperature, ht, ?_⟩
    obtain ⟨sid, sn, sm, sc, sl, sr, st⟩ := s
    have e1 := h.id
    have e2 := h.right
    dsimp only at e1 e2 em ⊢
    rw [e1, e2, em]

theorem species_iff {l : List (Json K)} {acc r : List (Specie K)} :
    loop readSpecie l acc = .ok r ↔
      ∃ ss, List.Forall₂ SpecieSays l ss ∧ (ss.map (·.name)).Nodup ∧ (∀ t ∈ acc, ∀ s ∈ ss, t.name ≠ s.name) ∧ r = acc ++ ss := by
  induction l generalizing acc with
  | nil =>
    simp only [loop]
    constructor
    · intro h
      cases h
      exact ⟨[], .nil, List.nodup_nil, by simp, by simp⟩
    · rintro ⟨ss, h, -, -, e⟩
      cases h
      rw [e, List.append_nil]
  | cons v l ih =>
    simp only [loop, bind_iff, specie_iff, ih]
    constructor
    · rintro ⟨acc', ⟨s, hs, ha, rfl⟩, ss, hss, hn, hb, rfl⟩
      refine ⟨s :: ss, .cons hs hss, ?_, ?_, by simp⟩
      · rw [List.map_cons, List.nodup_cons]
        refine ⟨?_, hn⟩
        intro hm
        obtain ⟨t, ht, e⟩ := List.mem_map.1 hm
        exact hb s (by simp) t ht e.symm
      · intro t ht u hu
        rcases List.mem_cons.1 hu with rfl | hu
        · exact ha t ht
        · exact hb t (by simp [ht]) u hu
    · rintro ⟨ss, h, hn, hb, rfl⟩
      cases h with
      | cons hs hss =>
        rename_i s ss
        rw [List.map_cons, List.nodup_cons] at hn
        refine ⟨acc ++ [s], ⟨s, hs, fun t ht => hb t ht s (by simp), rfl⟩, ss, hss, hn.2, ?_, by simp⟩
        intro t ht u hu
        rcases List.mem_append.1 ht with ht | ht
        · exact hb t ht u (by simp [hu])
        · rw [List.mem_singleton.1 ht]
          intro e
          exact hn.1 (List.mem_map.2 ⟨u, hu, e.symm⟩)

theorem readSpecies_iff {root : List (String × Json K)} {r : List (Specie K)} :
    readSpecies root = .ok r ↔
      (∃ l, (Json.obj root).at ["particles"] = some (.arr l) ∧ List.Forall₂ SpecieSays l r) ∧ (r.map (·.name)).Nodup := by
  unfold readSpecies
  simp only [bind_iff, key_arr, species_iff, at_one]
  constructor
  · rintro ⟨l, hl, ss, h, hn, -, rfl⟩
    exact ⟨⟨l, hl, by simpa using h⟩, by simpa using hn⟩
  · rintro ⟨⟨l, hl, h⟩, hn⟩
    exact ⟨l, hl, r, h, hn, by simp, by simp⟩

theorem beam_iff {v : Json K} {acc r : List (BeamData K)} :
    readBeam v acc = .ok r ↔ ∃ s, BeamSays v s ∧ (∀ t ∈ acc, t.name ≠ s.name) ∧ r = acc ++ [s] := by
  unfold readBeam
  simp only [bind_iff, obj_iff, key_str, key_obj]
  constructor
  · rintro ⟨o, rfl, bo, hbo, n, hn, h⟩
    split_ifs at h with ha
    simp only [bind_iff, key_num, key_obj, key_str, toInt_iff] at h
    obtain ⟨xm, hm, m, cm, xc, hc, c, cc, st, hst, ve, hve, xa, hxa, a, ca, di, hdi, le, hle, ra, hra, de, hde, pr, hpr, p1, hp1, p2, hp2, e⟩ := h
    cases e
    refine ⟨_, ⟨⟨n, ?_, rfl⟩, ⟨m, ⟨xm, ?_, cm.1, cm.2⟩, rfl⟩, ⟨xc, ?_, cc.1, cc.2⟩, ?_, ?_, ⟨xa, ?_, ca.1, ca.2⟩, ?_, ?_, ?_, ?_, ?_, ?_, rfl⟩,
      ?_, rfl⟩
    · rw [at_one]; exact hn
    · rw [at_one]; exact hm
    · rw [at_one]; exact hc
    · rw [at_one]; exact hst
    · rw [at_one]; exact hve
    · simp only [at_obj, hbo, Option.bind_some, hxa, at_nil]
    · simp only [at_obj, hbo, Option.bind_some, hdi, at_nil]
    · simp only [at_obj, hbo, Option.bind_some, hle, at_nil]
    · simp only [at_obj, hbo, Option.bind_some, hra, at_nil]
    · simp only [at_obj, hbo, Option.bind_some, hde, at_nil]
    · simp only [at_obj, hbo, Option.bind_some, hpr, hp1, at_nil]
    · simp only [at_obj, hbo, Option.bind_some, hpr, hp2, at_nil]
    · intro t ht e
      exact ha (List.any_eq_true.2 ⟨t, ht, decide_eq_true e⟩)
  · rintro ⟨s, h, ha, rfl⟩
    obtain ⟨n, hn, en⟩ := h.name
    obtain ⟨o, x, rfl, -, -⟩ := at_cons hn
    obtain ⟨m, ⟨xm, hm, cm⟩, em⟩ := h.mass
    obtain ⟨xc, hc, cc⟩ := h.charge
    obtain ⟨xa, hxa, ca⟩ := h.bunches
    have hst := h.start
    have hve := h.velocity
    have hdi := h.distance
    have hle := h.length
    have hra := h.radius
    have hde := h.density
    have hp1 := h.radial
    have hp2 := h.longitudinal
    obtain ⟨o', bv, e, hbo, hp1'⟩ := at_cons hp1
    cases e
    obtain ⟨bo, pv, rfl, hpr, hp1''⟩ := at_cons hp1'
    obtain ⟨pr, qv, rfl, -, -⟩ := at_cons hp1''
    simp only [at_obj, hbo, hpr, Option.bind_some] at hxa hdi hle hra hde hp1 hp2
    rw [← at_obj, at_one] at hxa hdi hle hra hde hp1 hp2
    rw [at_one] at hn hm hc hst hve
    refine ⟨o, rfl, bo, hbo, n, hn, ?_⟩
    have en' : beamPrefix ++ n = s.name := en.symm
    rw [en', if_neg (by
      intro hh
      obtain ⟨t, ht, e⟩ := List.any_eq_true.1 hh
      exact ha t ht (of_decide_eq_true e))]
    simp only [bind_iff, key_num, key_obj, key_str, toInt_iff]
    refine ⟨xm, hm, m, cm, xc, hc, s.charge, cc, s.start, hst, s.velocity, hve, xa, hxa, s.bunches, ca, s.distance, hdi, s.length, hle,
      s.radius, hra, s.density, hde, pr, hpr, s.radial, hp1, s.longitudinal, hp2, ?_⟩
    rw [← h.id, ← em]

theorem beams_iff {l : List (Json K)} {acc r : List (BeamData K)} :
    loop readBeam l acc = .ok r ↔
      ∃ ss, List.Forall₂ BeamSays l ss ∧ (ss.map (·.name)).Nodup ∧ (∀ t ∈ acc, ∀ s ∈ ss, t.name ≠ s.name) ∧ r = acc ++ ss := by
  induction l generalizing acc with
  | nil =>
    simp only [loop]
    constructor
    · intro h
      cases h
      exact ⟨[], .nil, List.nodup_nil, by simp, by simp⟩
    · rintro ⟨ss, h, -, -, e⟩
      cases h
      rw [e, List.append_nil]
  | cons v l ih =>
    simp only [loop, bind_iff, beam_iff, ih]
    constructor
    · rintro ⟨acc', ⟨s, hs, ha, rfl⟩, ss, hss, hn, hb, rfl⟩
      refine ⟨s :: ss, .cons hs hss, ?_, ?_, by simp⟩
      · rw [List.map_cons, List.nodup_cons]
        refine ⟨?_, hn⟩
        intro hm
        obtain ⟨t, ht, e⟩ := List.mem_map.1 hm
        exact hb s (by simp) t ht e.symm
      · intro t ht u hu
        rcases List.mem_cons.1 hu with rfl | hu
        · exact ha t ht
        · exact hb t (by simp [ht]) u hu
    · rintro ⟨ss, h, hn, hb, rfl⟩
      cases h with
      | cons hs hss =>
        rename_i s ss
        rw [List.map_cons, List.nodup_cons] at hn
        refine ⟨acc ++ [s], ⟨s, hs, fun t ht => hb t ht s (by simp), rfl⟩, ss, hss, hn.2, ?_, by simp⟩
        intro t ht u hu
        rcases List.mem_append.1 ht with ht | ht
        · exact hb t ht u (by simp [hu])
        · rw [List.mem_singleton.1 ht]
          intro e
          exact hn.1 (List.mem_map.2 ⟨u, hu, e.symm⟩)

theorem readBeams_iff {root : List (String × Json K)} {r : List (BeamData K)} :
    readBeams root = .ok r ↔
      (∃ l, (Json.obj root).at ["beams"] = some (.arr l) ∧ List.Forall₂ BeamSays l r) ∧ (r.map (·.name)).Nodup := by
  unfold readBeams
  simp only [bind_iff, key_arr, beams_iff, at_one]
  constructor
  · rintro ⟨l, hl, ss, h, hn, -, rfl⟩
    exact ⟨⟨l, hl, by simpa using h⟩, by simpa using hn⟩
  · rintro ⟨⟨l, hl, h⟩, hn⟩
    exact ⟨l, hl, r, h, hn, by simp, by simp⟩

theorem readTime_iff {root : List (String × Json K)} {t : Out.Time K} :
    readTime root = .ok t ↔ (Json.obj root).at ["time", "start"] = some (.num t.start) ∧
      (Json.obj root).at ["time", "end"] = some (.num t.stop) ∧ (Json.obj root).at ["time", "step"] = some (.num t.step) ∧
      t.current = 0 := by
  unfold readTime
  simp only [bind_iff, key_obj, key_num]
  constructor
  · rintro ⟨o, ho, a, ha, e, he, s, hs, r⟩
    cases r
    simp only [at_obj, ho, ha, he, hs, Option.bind_some, at_nil, Out.initTime, and_self]
  · rintro ⟨ha, he, hs, hc⟩
    obtain ⟨o', v, e, ho, h1⟩ := at_cons ha
    cases e
    obtain ⟨o, x, rfl, -, -⟩ := at_cons h1
    simp only [at_obj, ho, Option.bind_some] at ha he hs
    rw [← at_obj, at_one] at ha he hs
    refine ⟨o, ho, _, ha, _, he, _, hs, ?_⟩
    unfold Out.initTime
    rw [← hc]

theorem readOutput_iff {root : List (String × Json K)} {r : List Char} {u : Bool} {n : Int} :
    readOutput root = .ok (r, u, n) ↔ (Json.obj root).at ["data", "data_root"] = some (.str r) ∧
      (Json.obj root).at ["data", "compression", "use"] = some (.bool u) ∧
      IntAt (Json.obj root) ["data", "compression", "level"] n := by
  unfold readOutput IntAt
  simp only [bind_iff, key_obj, key_num, key_str, key_bool, toInt_iff]
  constructor
  · rintro ⟨o, ho, a, ha, c, hc, u', hu, x, hx, n', hn, e⟩
    cases e
    exact ⟨by simp only [at_obj, ho, ha, Option.bind_some, at_nil], by simp only [at_obj, ho, hc, hu, Option.bind_some, at_nil],
      x, by simp only [at_obj, ho, hc, hx, Option.bind_some, at_nil], hn⟩
  · rintro ⟨ha, hu, x, hx, hn⟩
    obtain ⟨o', v, e, ho, h1⟩ := at_cons hu
    cases e
    obtain ⟨o, y, rfl, hc, h2⟩ := at_cons h1
    obtain ⟨c, z, rfl, -, -⟩ := at_cons h2
    simp only [at_obj, ho, hc, Option.bind_some] at ha hu hx
    rw [← at_obj, at_one] at ha hu hx
    exact ⟨o, ho, r, ha, c, hc, u, hu, x, hx, n, hn, rfl⟩

theorem check_iff {nr nz : Nat} {p q : Rect} :
    checkRect nr nz p = .ok q ↔ q = p ∧ p.r0 ≤ p.r1 ∧ p.r1 ≤ nr ∧ p.z0 ≤ p.z1 ∧ p.z1 ≤ nz := by
  unfold checkRect
  split_ifs with h1 h2 h3
  · simp; omega
  · simp; omega
  · simp; omega
  · rw [not_or] at h1
    constructor
    · intro e
      cases e
      exact ⟨rfl, by omega, by omega, by omega, by omega⟩
    · rintro ⟨rfl, -⟩
      rfl

theorem specie_says {o : List (String × Json K)} :
    (Json.obj o).at ["specie"] = some (.str (probeSpecie o)) ∨
      (∀ s, (Json.obj o).at ["specie"] ≠ some (.str s)) ∧ probeSpecie o = "unknown".toList := by
  rw [at_one]
  unfold probeSpecie key
  cases h : look o "specie" with
  | none => exact .inr ⟨by simp, by simp⟩
  | some v => cases v <;> simp

theorem probe_iff {nr nz : Nat} {v : Json K} {p : ProbeData} :
    readProbe nr nz v = .ok p ↔ ProbeSays nr nz v p := by
  unfold readProbe
  simp only [bind_iff, obj_iff, key_str]
  constructor
  · rintro ⟨o, rfl, comp, hc, shape, hs, h⟩
    split_ifs at h with ha hb
    subst ha
    simp only [bind_iff, key_num, key_obj, key_str, toInt_iff, toSize_iff, check_iff] at h
    obtain ⟨s, hs', a, haa, r0, h0, b, hbb, z0, h1, e, he, c, hcc, r1, h2, d, hd, z1, h3, x, hx, n, hn, q, ⟨rfl, hq⟩, e⟩ := h
    cases e
    refine ⟨?_, specie_says, ?_, ⟨a, ?_, h0⟩, ⟨b, ?_, h1⟩, ⟨c, ?_, h2⟩, ⟨d, ?_, h3⟩, hq, ⟨n, ⟨x, ?_, hn⟩, rfl⟩, rfl⟩
    · rw [at_one]; exact hc
    · rw [at_one]; exact hs
    · simp only [at_obj, hs', haa, Option.bind_some, at_nil]
    · simp only [at_obj, hs', hbb, Option.bind_some, at_nil]
    · simp only [at_obj, he, hcc, Option.bind_some, at_nil]
    · simp only [at_obj, he, hd, Option.bind_some, at_nil]
    · rw [at_one]; exact hx
  · intro h
    have hc := h.component
    have hs := h.shape
    obtain ⟨o, w, rfl, -, -⟩ := at_cons hc
    obtain ⟨a, haa, h0⟩ := h.r0
    obtain ⟨b, hbb, h1⟩ := h.z0
    obtain ⟨c, hcc, h2⟩ := h.r1
    obtain ⟨d, hd, h3⟩ := h.z1
    obtain ⟨n, ⟨x, hx, hn⟩, en⟩ := h.schedule
    obtain ⟨o', v1, e, hst, g1⟩ := at_cons haa
    cases e
    obtain ⟨s, y, rfl, -, -⟩ := at_cons g1
    obtain ⟨o', v2, e, hen, g2⟩ := at_cons hcc
    cases e
    obtain ⟨e, y', rfl, -, -⟩ := at_cons g2
    simp only [at_obj, hst, hen, Option.bind_some] at haa hbb hcc hd
    rw [← at_obj, at_one] at haa hbb hcc hd
    rw [at_one] at hc hs hx
    refine ⟨o, rfl, p.component, hc, _, hs, ?_⟩
    rw [if_pos rfl]
    have es : probeSpecie o = p.specie := by
      rcases specie_says (o := o) with g | ⟨g, g'⟩ <;> rcases h.specie with f | ⟨f, f'⟩
      · rw [g] at f
        exact Json.str.inj (Option.some.inj f)
      · exact absurd g (f _)
      · exact absurd f (g _)
      · rw [g', f']
    simp only [bind_iff, key_num, key_obj, key_str, toInt_iff, toSize_iff, check_iff]
    refine ⟨s, hst, a, haa, _, h0, b, hbb, _, h1, e, hen, c, hcc, _, h2, d, hd, _, h3, x, hx, n, hn, _, ⟨rfl, h.inside⟩, ?_⟩
    rw [es, ← en]
    have := h.path
    obtain ⟨pc, ps, pp, pd, psch⟩ := p
    dsimp only at this ⊢
    rw [this]

theorem readProbes_iff {nr nz : Nat} {root : List (String × Json K)} {r : List ProbeData} :
    readProbes nr nz root = .ok r ↔
      ∃ l, (Json.obj root).at ["data", "probes"] = some (.arr l) ∧ List.Forall₂ (ProbeSays nr nz) l r := by
  unfold readProbes
  simp only [bind_iff, key_obj, key_arr, each_iff, probe_iff]
  constructor
  · rintro ⟨d, hd, l, hl, h⟩
    exact ⟨l, by simp only [at_obj, hd, hl, Option.bind_some, at_nil], h⟩
  · rintro ⟨l, hl, h⟩
    obtain ⟨o', v, e, ho, h1⟩ := at_cons hl
    cases e
    obtain ⟨o, x, rfl, hx, h2⟩ := at_cons h1
    rw [at_nil] at h2
    cases h2
    exact ⟨o, ho, l, hx, h⟩

theorem nums_iff {l : List (Json K)} {m : List K} : each Json.toNum l = .ok m ↔ l = m.map .num := by
  rw [each_iff]
  constructor
  · intro h
    induction h with
    | nil => rfl
    | cons hab _ ih =>
      rename_i a b l m _
      rw [List.map_cons, ih]
      cases a <;> simp [Json.toNum] at hab
      rw [hab]
  · rintro rfl
    induction m with
    | nil => exact .nil
    | cons x m ih => exact .cons rfl ih

theorem field_iff {root : List (String × Json K)} {k : String} {f : FieldData K} {v : Json K} {p : List String}
    (hv : ∀ q, v.at (p ++ q) = (Json.obj root).at q) :
    readField root k = .ok f ↔ FieldSays v (p ++ [k]) f := by
  unfold readField FieldSays
  simp only [bind_iff, key_obj, key_arr, key_str, nums_iff, List.append_assoc, hv]
  constructor
  · rintro ⟨o, ho, s, hs, l, hl, ps, rfl, e⟩
    cases e
    exact ⟨by simp only [List.cons_append, List.nil_append, at_obj, ho, hs, Option.bind_some, at_nil],
      by simp only [List.cons_append, List.nil_append, at_obj, ho, hl, Option.bind_some, at_nil]⟩
  · rintro ⟨hs, hl⟩
    simp only [List.cons_append, List.nil_append] at hs hl
    obtain ⟨o', w, e, ho, h1⟩ := at_cons hs
    cases e
    obtain ⟨o, x, rfl, hx, -⟩ := at_cons h1
    simp only [at_obj, ho, Option.bind_some] at hs hl
    rw [← at_obj, at_one] at hs hl
    exact ⟨o, ho, _, hs, _, hl, _, rfl, rfl⟩

theorem readFields_iff {b : Build} {root : List (String × Json K)} {e m : Option (FieldData K)} :
    readFields b root = .ok (e, m) ↔
      if b.external then
        ∃ e' m', e = some e' ∧ m = some m' ∧ FieldSays (.obj root) ["external_fields", "electric"] e' ∧
          FieldSays (.obj root) ["external_fields", "magnetic"] m'
      else e = none ∧ m = none := by
  unfold readFields
  split_ifs with hb
  · simp only [bind_iff, key_obj]
    constructor
    · rintro ⟨o, ho, e', he, m', hm, r⟩
      cases r
      have hv : ∀ q, (Json.obj root).at (["external_fields"] ++ q) = (Json.obj o).at q := by
        intro q
        simp only [List.cons_append, List.nil_append, at_obj, ho, Option.bind_some]
      exact ⟨e', m', rfl, rfl, (field_iff hv).1 he, (field_iff hv).1 hm⟩
    · rintro ⟨e', m', rfl, rfl, he, hm⟩
      obtain ⟨o', w, r, ho, h1⟩ := at_cons he.1
      cases r
      obtain ⟨o, x, rfl, -, -⟩ := at_cons h1
      have hv : ∀ q, (Json.obj root).at (["external_fields"] ++ q) = (Json.obj o).at q := by
        intro q
        simp only [List.cons_append, List.nil_append, at_obj, ho, Option.bind_some]
      exact ⟨o, ho, e', (field_iff hv).2 he, m', (field_iff hv).2 hm, rfl⟩
  · constructor
    · intro h
      cases h
      exact ⟨rfl, rfl⟩
    · rintro ⟨rfl, rfl⟩
      rfl

theorem floor_iff {x : K} {n : Nat} :
    toSize ((⌊x⌋ : Int) : K) = .ok n ↔ (n : K) ≤ x ∧ x < n + 1 ∧ n < 2 ^ 64 := by
  rw [toSize_iff]
  have hc : ∀ m : Int, Cut ((m : Int) : K) m := by
    intro m
    unfold Cut
    split_ifs <;> constructor <;> linarith
  constructor
  · rintro ⟨h, hn⟩
    have e := cut_det h (hc _)
    have h1 := Int.floor_le x
    have h2 := Int.lt_floor_add_one x
    rw [← e] at h1 h2
    exact ⟨by exact_mod_cast h1, by exact_mod_cast h2, hn⟩
  · rintro ⟨h1, h2, hn⟩
    have e : ⌊x⌋ = (n : Int) := Int.floor_eq_iff.2 ⟨by exact_mod_cast h1, by exact_mod_cast h2⟩
    rw [e]
    exact ⟨hc _, hn⟩

theorem layers_iff {b : Build} {root g : List (String × Json K)} {nr nz : Nat} {p : LayerData K}
    (hg : look root "geometry" = some (.obj g)) :
    readLayers b g nr nz = .ok p ↔ if b.pml then
      LayerAt (.obj root) ["geometry", "pml", "left_wall"] nz p.left ∧
      LayerAt (.obj root) ["geometry", "pml", "outer_wall"] nr p.outer ∧
      LayerAt (.obj root) ["geometry", "pml", "right_wall"] nz p.right ∧
      (Json.obj root).at ["geometry", "pml", "sigma_1"] = some (.num p.sigma1) ∧
      (Json.obj root).at ["geometry", "pml", "sigma_2"] = some (.num p.sigma2)
    else p.left = 0 ∧ p.outer = 0 ∧ p.right = 0 ∧ p.sigma1 = 0 ∧ p.sigma2 = 0 := by
  unfold readLayers LayerAt
  split_ifs with hb
  · simp only [bind_iff, key_obj, key_num, floor_iff]
    constructor
    · rintro ⟨o, ho, l, hl, r, hr, u, hu, s1, h1, s2, h2, pl, h3, po, h4, pr, h5, e⟩
      cases e
      refine ⟨⟨l, ?_, h3⟩, ⟨u, ?_, h4⟩, ⟨r, ?_, h5⟩, ?_, ?_⟩
      · simp only [at_obj, hg, ho, hl, Option.bind_some, at_nil]
      · simp only [at_obj, hg, ho, hu, Option.bind_some, at_nil]
      · simp only [at_obj, hg, ho, hr, Option.bind_some, at_nil]
      · simp only [at_obj, hg, ho, h1, Option.bind_some, at_nil]
      · simp only [at_obj, hg, ho, h2, Option.bind_some, at_nil]
    · rintro ⟨⟨l, hl, h3⟩, ⟨u, hu, h4⟩, ⟨r, hr, h5⟩, h1, h2⟩
      obtain ⟨o', w, e, ho, k1⟩ := at_cons h1
      cases e
      rw [hg] at ho
      cases ho
      obtain ⟨o', w, e, ho, k2⟩ := at_cons k1
      cases e
      obtain ⟨q, y, rfl, -, -⟩ := at_cons k2
      simp only [at_obj, hg, ho, Option.bind_some] at hl hu hr h1 h2
      rw [← at_obj, at_one] at hl hu hr h1 h2
      exact ⟨q, ho, l, hl, r, hr, u, hu, _, h1, _, h2, _, h3, _, h4, _, h5, rfl⟩
  · constructor
    · intro h
      cases h
      exact ⟨rfl, rfl, rfl, rfl, rfl⟩
    · obtain ⟨p1, p2, p3, p4, p5⟩ := p
      rintro ⟨h1, h2, h3, h4, h5⟩
      dsimp only at h1 h2 h3 h4 h5
      rw [h1, h2, h3, h4, h5]

theorem domains_iff {b : Build} {root g : List (String × Json K)} {d : Nat × Nat}
    (hg : look root "geometry" = some (.obj g)) :
    readDomains b g = .ok d ↔ if b.single then d.1 = 1 ∧ d.2 = 1
      else (∃ n : Int, IntAt (.obj root) ["geometry", "domains_amount", "radius"] n ∧ d.1 = toU64 n) ∧
        ∃ n : Int, IntAt (.obj root) ["geometry", "domains_amount", "longitude"] n ∧ d.2 = toU64 n := by
  obtain ⟨d1, d2⟩ := d
  unfold readDomains IntAt
  split_ifs with hb
  · constructor
    · intro h
      cases h
      exact ⟨rfl, rfl⟩
    · rintro ⟨h1, h2⟩
      dsimp only at h1 h2
      rw [h1, h2]
  · simp only [bind_iff, key_obj, key_num, toInt_iff]
    constructor
    · rintro ⟨o, ho, r, hr, n, hn, z, hz, m, hm, e⟩
      cases e
      exact ⟨⟨n, ⟨r, by simp only [at_obj, hg, ho, hr, Option.bind_some, at_nil], hn⟩, rfl⟩,
        m, ⟨z, by simp only [at_obj, hg, ho, hz, Option.bind_some, at_nil], hm⟩, rfl⟩
    · rintro ⟨⟨n, ⟨r, hr, hn⟩, e1⟩, m, ⟨z, hz, hm⟩, e2⟩
      obtain ⟨o', w, e, ho, k1⟩ := at_cons hr
      cases e
      rw [hg] at ho
      cases ho
      obtain ⟨o', w, e, ho, k2⟩ := at_cons k1
      cases e
      obtain ⟨q, y, rfl, -, -⟩ := at_cons k2
      simp only [at_obj, hg, ho, Option.bind_some] at hr hz
      rw [← at_obj, at_one] at hr hz
      exact ⟨q, ho, r, hr, n, hn, z, hz, m, hm, by rw [e1, e2]⟩

theorem again {x : K} {n : Nat} (hx : x ≠ 0) (hn : n ≠ 0) (hs : n < 2 ^ 64) : toSize (x / (x / n)) = .ok n := by
  have hn' : (n : K) ≠ 0 := by exact_mod_cast hn
  have e : x / (x / n) = ((n : Int) : K) := by
    push_cast
    field_simp
  rw [e, toSize_iff]
  refine ⟨?_, hs⟩
  unfold Cut
  split_ifs <;> constructor <;> linarith

theorem readGeometry_iff {b : Build} {root : List (String × Json K)} {w : Whole K} {s1 s2 : K} :
    readGeometry b root = .ok (w, s1, s2) ↔
      ((Json.obj root).at ["geometry", "size", "radius"] = some (.num w.sizeR) ∧ w.sizeR ≠ 0) ∧
      ((Json.obj root).at ["geometry", "size", "longitude"] = some (.num w.sizeZ) ∧ w.sizeZ ≠ 0) ∧
      (NatAt 64 (.obj root) ["geometry", "grid", "radius"] w.nr ∧ w.nr ≠ 0) ∧
      (NatAt 64 (.obj root) ["geometry", "grid", "longitude"] w.nz ∧ w.nz ≠ 0) ∧
      w.cellR * w.nr = w.sizeR ∧ w.cellZ * w.nz = w.sizeZ ∧ (w.allR = w.nr ∧ w.allZ = w.nz) ∧
      (if b.pml then
        LayerAt (.obj root) ["geometry", "pml", "left_wall"] w.nz w.pmlLeft ∧
        LayerAt (.obj root) ["geometry", "pml", "outer_wall"] w.nr w.pmlOuter ∧
        LayerAt (.obj root) ["geometry", "pml", "right_wall"] w.nz w.pmlRight ∧
        (Json.obj root).at ["geometry", "pml", "sigma_1"] = some (.num s1) ∧
        (Json.obj root).at ["geometry", "pml", "sigma_2"] = some (.num s2)
      else w.pmlLeft = 0 ∧ w.pmlOuter = 0 ∧ w.pmlRight = 0 ∧ s1 = 0 ∧ s2 = 0) ∧
      (if b.single then w.domR = 1 ∧ w.domZ = 1
      else (∃ n : Int, IntAt (.obj root) ["geometry", "domains_amount", "radius"] n ∧ w.domR = toU64 n) ∧
        ∃ n : Int, IntAt (.obj root) ["geometry", "domains_amount", "longitude"] n ∧ w.domZ = toU64 n) := by
  unfold readGeometry NatAt
  simp only [bind_iff, key_obj, key_num, toSize_iff]
  constructor
  · rintro ⟨g, hg, size, hs, grid, hd, r, hr, l, hl, xr, hxr, nr, cr, xz, hxz, nz, cz, p, hp, h⟩
    split_ifs at h with h0
    rw [not_or, not_or, not_or] at h0
    obtain ⟨n1, n2, n3, n4⟩ := h0
    simp only [bind_iff] at h
    obtain ⟨ar, h1, az, h2, d, h3, e⟩ := h
    rw [again n3 n1 cr.2] at h1
    rw [again n4 n2 cz.2] at h2
    cases h1
    cases h2
    cases e
    have q1 : (nr : K) ≠ 0 := by exact_mod_cast n1
    have q2 : (nz : K) ≠ 0 := by exact_mod_cast n2
    refine ⟨⟨?_, n3⟩, ⟨?_, n4⟩, ⟨⟨xr, ?_, cr⟩, n1⟩, ⟨⟨xz, ?_, cz⟩, n2⟩, ?_, ?_, ⟨rfl, rfl⟩, (layers_iff hg).1 hp, (domains_iff hg).1 h3⟩
    · simp only [at_obj, hg, hs, hr, Option.bind_some, at_nil]
    · simp only [at_obj, hg, hs, hl, Option.bind_some, at_nil]
    · simp only [at_obj, hg, hd, hxr, Option.bind_some, at_nil]
    · simp only [at_obj, hg, hd, hxz, Option.bind_some, at_nil]
    · exact div_mul_cancel₀ r q1
    · exact div_mul_cancel₀ l q2
  · rintro ⟨⟨hr, n3⟩, ⟨hl, n4⟩, ⟨⟨xr, hxr, cr⟩, n1⟩, ⟨⟨xz, hxz, cz⟩, n2⟩, c1, c2, ⟨a1, a2⟩, hp, hd⟩
    obtain ⟨o', v, e, hg, k1⟩ := at_cons hr
    cases e
    obtain ⟨g, v', rfl, hs, k2⟩ := at_cons k1
    obtain ⟨size, v'', rfl, -, -⟩ := at_cons k2
    obtain ⟨o', v, e, hg', k1⟩ := at_cons hxr
    cases e
    rw [hg] at hg'
    cases hg'
    obtain ⟨o', v', e, hgr, k2⟩ := at_cons k1
    cases e
    obtain ⟨grid, v'', rfl, -, -⟩ := at_cons k2
    simp only [at_obj, hg, hs, hgr, Option.bind_some] at hr hl hxr hxz
    rw [← at_obj, at_one] at hr hl hxr hxz
    have q1 : (w.nr : K) ≠ 0 := by exact_mod_cast n1
    have q2 : (w.nz : K) ≠ 0 := by exact_mod_cast n2
    refine ⟨g, hg, size, hs, grid, hgr, _, hr, _, hl, xr, hxr, _, cr, xz, hxz, _, cz,
      ⟨w.pmlLeft, w.pmlOuter, w.pmlRight, s1, s2⟩, (layers_iff hg).2 hp, ?_⟩
    rw [if_neg (by rw [not_or, not_or, not_or]; exact ⟨n1, n2, n3, n4⟩), again n3 n1 cr.2, again n4 n2 cz.2]
    simp only [bind_iff]
    refine ⟨_, rfl, _, rfl, (w.domR, w.domZ), (domains_iff hg).2 hd, ?_⟩
    have e1 : w.sizeR / w.nr = w.cellR := by rw [← c1]; exact mul_div_cancel_right₀ _ q1
    have e2 : w.sizeZ / w.nz = w.cellZ := by rw [← c2]; exact mul_div_cancel_right₀ _ q2
    rw [e1, e2]
    obtain ⟨w1, w2, w3, w4, w5, w6, w7, w8, w9, w10, w11, w12, w13⟩ := w
    dsimp only at a1 a2 ⊢
    rw [a1, a2]

theorem converts_iff {l : List K} {m : List Nat} :
    Limits.convertAll l = .ok m ↔ List.Forall₂ (fun x (n : Nat) => Cut x n ∧ n < 2 ^ 32) l m := by
  have e : ∀ l : List K, Limits.convertAll l = each Limits.toUInt l := by
    intro l
    induction l with
    | nil => rfl
    | cons x l ih => simp only [Limits.convertAll, each, ih]
  rw [e, each_iff]
  simp only [toUInt_iff]

theorem sum_fold (dr dz ratio a : K) (l : List (Limits.Beam K)) :
    l.foldl (fun s b => s + Limits.beamCells dr dz b * ratio) a = a + (l.map fun b => Limits.beamCells dr dz b * ratio).sum := by
  induction l generalizing a with
  | nil => simp
  | cons b l ih =>
    rw [List.foldl_cons, ih, List.map_cons, List.sum_cons]
    ring

theorem same_iff {α : Type _} {R : K → α → Prop} {x : K} {k : Nat} {m : List α} :
    List.Forall₂ R (List.replicate k x) m ↔ m.length = k ∧ ∀ n ∈ m, R x n := by
  induction k generalizing m with
  | zero =>
    cases m with
    | nil => simp
    | cons a m => simp
  | succ k ih =>
    cases m with
    | nil => simp
    | cons a m =>
      rw [List.replicate_succ, List.forall₂_cons, ih]
      simp only [List.length_cons, List.mem_cons, forall_eq_or_imp]
      constructor
      · rintro ⟨h, e, h'⟩
        exact ⟨by omega, h, h'⟩
      · rintro ⟨e, h, h'⟩
        exact ⟨h, by omega, h'⟩

theorem readAmounts_iff {b : Build} (c : Conf K) :
    readAmounts b c.total c.ratio c.geo c.species c.beams = .ok c.amounts ↔
      b.pusher ≠ none ∧ if c.species = [] ∧ c.beams = [] then c.amounts = ([], []) else AmountsSay c := by
  unfold readAmounts
  cases hb : b.pusher with
  | none => simp
  | some k =>
    simp only [ne_eq, reduceCtorEq, not_false_eq_true, true_and]
    split_ifs with h0
    · constructor
      · intro h
        exact (Res.ok.inj h).symm
      · intro h
        rw [h]
    · have es : Limits.normSum c.geo.nr c.geo.nz c.species.length c.geo.cellR c.geo.cellZ c.ratio (c.beams.map weightBeam) =
          shareSum c := by
        unfold Limits.normSum shareSum
        rw [sum_fold, List.map_map]
        congr 2
        apply List.map_congr_left
        intro p _
        simp only [Function.comp, Limits.beamCells, weightBeam, beamCellsOf, Nat.cast_one, mul_one]
      unfold Limits.weightMacro
      simp only [es]
      split_ifs with h1
      · constructor
        · intro h
          cases h
        · intro h
          exact absurd h1 h.sum
      · simp only [bind_iff, converts_iff, same_iff]
        constructor
        · rintro ⟨sp, hsp, bm, hbm, e⟩
          have e := Res.ok.inj e
          refine ⟨h1, ?_, ?_⟩
          · rw [← e]
            exact hsp
          · rw [← e]
            rw [List.map_map, List.forall₂_map_left_iff] at hbm
            refine hbm.imp ?_
            intro p n hn
            simpa only [Function.comp, Limits.beamCells, weightBeam, beamCellsOf, Nat.cast_one, mul_one] using hn
        · rintro ⟨-, hsp, hbm⟩
          refine ⟨c.amounts.1, hsp, c.amounts.2, ?_, rfl⟩
          rw [List.map_map, List.forall₂_map_left_iff]
          refine hbm.imp ?_
          intro p n hn
          simpa only [Function.comp, Limits.beamCells, weightBeam, beamCellsOf, Nat.cast_one, mul_one] using hn

end

end Config
end Pico
