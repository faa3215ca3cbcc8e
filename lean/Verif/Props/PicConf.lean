import Verif.Spec.PicConf
import Verif.Props.PicStart
import Verif.Props.PicOut
import Verif.Props.Config

/-!
# C117: from the configuration file to the results
-/

set_option linter.unusedSimpArgs false
set_option linter.unusedSectionVars false

namespace Pico
namespace PicConf

open Config SMB Yee Pic

theorem beams_sub {c : Conf ℝ} {p : BeamData ℝ × Nat} (h : p ∈ beamsOf c) : p.1 ∈ c.beams ∧ p.2 ∈ c.amounts.2 := by
  unfold beamsOf at h
  exact List.of_mem_zip (List.mem_filter.mp h).1

theorem mass_pos {c : Conf ℝ} (h : Usable c) (id : Nat) : 0 < massOf c id := by
  have e : (0 : ℝ) < elMass := by unfold elMass; norm_num
  unfold massOf
  split
  · rename_i s hs
    have := h.mass.1 s (List.mem_of_find?_eq_some hs)
    have : (0 : ℝ) < s.mass := by exact_mod_cast this
    positivity
  · rename_i p _ hp
    have := h.mass.2 p.1 (beams_sub (List.mem_of_find?_eq_some hp)).1
    have : (0 : ℝ) < p.1.mass := by exact_mod_cast this
    positivity
  · exact e

/-- The mass of a species. -/
theorem mass_eq {c : Conf ℝ} (h : Usable c) {s : Species.Specie ℝ} (hs : s ∈ c.species) : massOf c s.id = s.mass * elMass := by
  unfold massOf
  have nd : (c.species.map (·.id)).Nodup := (List.nodup_append.mp h.ids).1
  cases e : c.species.find? (fun t => t.id = s.id) with
  | none => exact absurd (List.find?_eq_none.mp e s hs) (by simp)
  | some t =>
    have e1 := List.mem_of_find?_eq_some e
    have e2 : t.id = s.id := by simpa using List.find?_some e
    rw [List.inj_on_of_nodup_map nd e1 hs e2]

/-- A message about the time step is all the program says about it. -/
theorem no_message {c : Conf ℝ} (hc : checks light freqConst debyeConst c = .ok ()) (h : ∀ ms, Limits.check light freqConst debyeConst (limitsOf c) = .ok ms → Limits.Msg.timeStep ∉ ms) :
    c.time.step ≤ c.geo.cellR / light ∧ c.time.step ≤ c.geo.cellZ / light := by
  unfold checks at hc
  obtain ⟨ms, e, -⟩ := bind_iff.1 hc
  have hn := h ms e
  unfold Limits.check at e
  by_cases hd : (Limits.badDomains (limitsOf c).domR || Limits.badDomains (limitsOf c).domZ) = true
  · rw [if_pos hd] at e
    cases e
  rw [if_neg hd] at e
  dsimp only at e
  by_cases h0 : (Limits.electrons (limitsOf c).species).1 = 0
  · rw [if_pos h0] at e
    cases e
  rw [if_neg h0] at e
  obtain ⟨ld, -, e⟩ := bind_iff.1 e
  by_cases ht : Limits.maxTime light freqConst (limitsOf c) < (limitsOf c).step
  · rw [if_pos ht] at e
    cases e
    simp at hn
  · have := not_lt.mp ht
    unfold Limits.maxTime at this
    have a := (this.trans (min_le_left _ _))
    exact ⟨a.trans (min_le_left _ _), a.trans (min_le_right _ _)⟩

theorem light_pos : 0 < light := by unfold light; norm_num

theorem chamber {b : Algos} {c : Conf ℝ} (h : Usable c) (ht : c.time.step ≤ c.geo.cellR / light ∧ c.time.step ≤ c.geo.cellZ / light) :
    Chamber (env b c) where
  r0 := rfl
  walls := rfl
  div := h.div
  good := by
    have r := h.cellR
    have z := h.cellZ
    refine ⟨⟨?_, ?_, ?_, ?_⟩, h.step, ?_, ?_⟩
    · show 0 < c.geo.cellR
      linarith [show (0 : ℝ) < 2e-15 by norm_num]
    · show 0 < c.geo.cellZ
      linarith [show (0 : ℝ) < 2e-15 by norm_num]
    · show 0 + c.geo.nr < 2 ^ 31
      have := h.div.r3
      rw [zero_add]
      exact this
    · show 0 + c.geo.nz < 2 ^ 31
      have := h.div.z3
      rw [zero_add]
      exact this
    · show 0 < pi
      unfold pi
      norm_num
    · show 0 < mnzl
      unfold mnzl
      norm_num
  c := light_pos
  cr := by
    have := (le_div_iff₀ light_pos).mp ht.1
    show light * c.time.step ≤ c.geo.cellR
    rw [mul_comm]
    exact this
  cz := by
    have := (le_div_iff₀ light_pos).mp ht.2
    show light * c.time.step ≤ c.geo.cellZ
    rw [mul_comm]
    exact this
  mass := mass_pos h

theorem amounts_length {b : Build} {j : Json ℝ} {c : Conf ℝ} (hs : Says b j c) : c.amounts.1.length = c.species.length := by
  have := hs.amounts
  split_ifs at this with k
  · rw [this, k.1]
    rfl
  · exact this.species.1

theorem setup_ids {b : Build} {j : Json ℝ} {c : Conf ℝ} (hs : Says b j c) (a : Algos) (x : Random) :
    (setup a c x).species.map Pic.Species.id = c.species.map (·.id) := by
  show ((c.species.zip c.amounts.1).map _).map _ = _
  rw [List.map_map]
  have : (Pic.Species.id ∘ fun p : Species.Specie ℝ × Nat => (⟨p.1.id, (p.2 : ℝ), p.1.left, p.1.right, p.1.temperature⟩ : Pic.Species)) =
      (fun s : Species.Specie ℝ => s.id) ∘ Prod.fst := rfl
  rw [this, ← List.map_map, List.map_fst_zip (by rw [amounts_length hs])]

theorem fst_zip {α β : Type _} (l : List α) (m : List β) : ((l.zip m).map fun p => p.1).Sublist l := by
  induction l generalizing m with
  | nil => simp
  | cons a l ih =>
    cases m with
    | nil => simp
    | cons b m => simpa using ih m

theorem beams_sublist (c : Conf ℝ) : ((beamsOf c).map fun p => p.1.id).Sublist (c.beams.map (·.id)) := by
  have : ((beamsOf c).map fun p => p.1).Sublist c.beams := by
    unfold beamsOf
    refine (List.Sublist.map _ List.filter_sublist).trans ?_
    exact fst_zip _ _
  have := this.map (·.id)
  rwa [List.map_map] at this

theorem mem_species {a : Algos} {c : Conf ℝ} {x : Random} {s : Pic.Species} (h : s ∈ (setup a c x).species) :
    ∃ t ∈ c.species, ∃ n ∈ c.amounts.1, s = ⟨t.id, (n : ℝ), t.left, t.right, t.temperature⟩ := by
  obtain ⟨p, hp, rfl⟩ := List.mem_map.mp h
  obtain ⟨h1, h2⟩ := List.of_mem_zip hp
  exact ⟨p.1, h1, p.2, h2, rfl⟩

theorem says_right {b : Build} {j : Json ℝ} {c : Conf ℝ} (hs : Says b j c) {t : Species.Specie ℝ} (ht : t ∈ c.species) : t.right = t.left := by
  obtain ⟨l, -, f⟩ := hs.species
  obtain ⟨i, hi, rfl⟩ := List.getElem_of_mem ht
  have hi' : i < l.length := by rw [f.length_eq]; exact hi
  have := f.get hi' hi
  exact this.right

/-- **C117.**  A file the program accepts without complaint about the time step, and that is usable, makes a sane simulation. -/
theorem C117_sane {b : Build} {a : Algos} (hb : Selects b a) {j : Json ℝ} {c : Conf ℝ} {at_ : List (String × Attr ℝ)}
    (hr : start (checks light freqConst debyeConst) b j = .ok (c, at_))
    (hm : ∀ ms, Limits.check light freqConst debyeConst (limitsOf c) = .ok ms → Limits.Msg.timeStep ∉ ms)
    (hu : Usable c) {x : Random} (hx : x.Fair) : (setup a c x).Sane := by
  obtain ⟨hs, hc, -, -⟩ := (C115_start _ b _ _ _ _ hb.spatial hb.speedy hb.pusher hb.deposition hb.yee j c at_).1 hr
  have ht := no_message hc hm
  refine ⟨chamber hu ht, ?_, ?_, ?_, ?_, ?_, ?_, ?_, ?_, ?_, hx.ur, hx.uz, hx.us, hx.rs⟩
  · show 0 < limit
    unfold limit
    norm_num
  · show 3 * limit < light
    unfold limit light
    norm_num
  · show 0 < elCharge
    unfold elCharge
    norm_num
  · show 0 < mnzl
    unfold mnzl
    norm_num
  · show mnzl < 1
    unfold mnzl
    norm_num
  · show mnzl < c.geo.cellR / 2
    have := hu.cellR
    unfold mnzl
    norm_num at this ⊢
    linarith
  · show mnzl < c.geo.cellZ / 2
    have := hu.cellZ
    unfold mnzl
    norm_num at this ⊢
    linarith
  · unfold Setup.ids
    rw [setup_ids hs]
    exact hu.ids.sublist (List.Sublist.append_left (beams_sublist c) _)
  · intro s h
    obtain ⟨t, ht, n, hn, rfl⟩ := mem_species h
    obtain ⟨p1, p2⟩ := hu.plasma t ht
    exact ⟨p1, by show 0 ≤ t.right; rw [says_right hs ht]; exact p1, p2⟩

/-- **C117.**  Mild temperatures are not too hot. -/
theorem C117_cold {a : Algos} {c : Conf ℝ} (hu : Usable c) (hm : Mild a c) (x : Random) : ∀ s ∈ (setup a c x).species, (setup a c x).Cold s := by
  intro s h
  obtain ⟨t, ht, n, hn, rfl⟩ := mem_species h
  have m1 := hm t ht
  have p2 := (hu.plasma t ht).2
  have hmass : (1 : ℝ) ≤ t.mass := by exact_mod_cast hu.mass.1 t ht
  have e : ∀ y : ℝ, Vel.ratio ((setup a c x).cst t.id) y = y * elCharge / (t.mass * elMass * light) := by
    intro y
    show y * elCharge / (massOf c t.id * light) = _
    rw [mass_eq hu ht]
  have em : (0 : ℝ) < t.mass * elMass * light := by
    have : (0 : ℝ) < t.mass := by linarith
    have : (0 : ℝ) < elMass := by unfold elMass; norm_num
    have := light_pos
    positivity
  unfold Setup.Cold
  show (match a.speedy with | .thermal => _ | .rectangular | .eigen => _)
  cases hsp : a.speedy with
  | thermal =>
    rw [hsp] at m1
    refine .inl ⟨m1, ?_⟩
    show Vel.ratio ((setup a c x).cst t.id) (21 * t.temperature) ^ 2 ≤ 2 * light ^ 2
    rw [e]
    have b1 : 21 * t.temperature * elCharge / (t.mass * elMass * light) ≤ light := by
      rw [div_le_iff₀ em]
      unfold elCharge elMass light
      norm_num at m1 ⊢
      nlinarith
    have b0 : 0 ≤ 21 * t.temperature * elCharge / (t.mass * elMass * light) := by
      refine div_nonneg ?_ em.le
      unfold elCharge
      norm_num
      exact p2
    have := light_pos
    nlinarith
  | rectangular =>
    rw [hsp] at m1
    show 2 * (2 * Vel.ratio ((setup a c x).cst t.id) t.temperature) ^ 2 < light ^ 2
    rw [e]
    have b1 : t.temperature * elCharge / (t.mass * elMass * light) ≤ 0.353 * light := by
      rw [div_le_iff₀ em]
      unfold elCharge elMass light
      norm_num at m1 ⊢
      nlinarith
    have b0 : 0 ≤ t.temperature * elCharge / (t.mass * elMass * light) := by
      refine div_nonneg ?_ em.le
      unfold elCharge
      norm_num
      exact p2
    have := light_pos
    norm_num at b1
    nlinarith
  | eigen =>
    rw [hsp] at m1
    show 2 * (2 * Vel.ratio ((setup a c x).cst t.id) t.temperature) ^ 2 < light ^ 2
    rw [e]
    have b1 : t.temperature * elCharge / (t.mass * elMass * light) ≤ 0.353 * light := by
      rw [div_le_iff₀ em]
      unfold elCharge elMass light
      norm_num at m1 ⊢
      nlinarith
    have b0 : 0 ≤ t.temperature * elCharge / (t.mass * elMass * light) := by
      refine div_nonneg ?_ em.le
      unfold elCharge
      norm_num
      exact p2
    have := light_pos
    norm_num at b1
    nlinarith

/-! ### Runs -/

theorem scheme (a : Deposition) : Scheme (schemeOf a) := by
  cases a
  · exact .inr rfl
  · exact .inl rfl

theorem getD_species {c : Conf ℝ} {i : Nat} {s : Species.Specie ℝ} (h : c.species[i]? = some s) (l : List Nat) :
    (c.species.map (·.id) ++ l).getD i 0 = s.id := by
  rw [List.getD_eq_getElem?_getD, List.getElem?_append_left (by rw [List.length_map]; exact (List.getElem?_eq_some_iff.1 h).1), List.getElem?_map, h]
  rfl

theorem watched {b : Build} {a : Algos} {j : Json ℝ} {c : Conf ℝ} (hs : Says b j c) (hu : Usable c) (hn : c.geo.nr < 2 ^ 15 ∧ c.geo.nz < 2 ^ 15)
    (hp : ∀ p ∈ c.probes, Served c p) : (oenv a c).Watched where
  r0 := rfl
  div := hu.div
  smallR := hn.1
  smallZ := hn.2
  dr := by
    show 0 < c.geo.cellR
    have := hu.cellR
    linarith [show (0 : ℝ) < 2e-15 by norm_num]
  dz := by
    show 0 < c.geo.cellZ
    have := hu.cellZ
    linarith [show (0 : ℝ) < 2e-15 by norm_num]
  dt := hu.step
  par := by
    intro s
    refine ⟨?_, light_pos, ?_, ?_, mass_pos hu _, ?_⟩
    · show 0 < pi
      unfold pi
      norm_num
    · show 0 < limit
      unfold limit
      norm_num
    · show limit ≤ light
      unfold limit light
      norm_num
    · show 0 < elCharge
      unfold elCharge
      norm_num
  probes := by
    intro k hk
    have e : (oenv a c).probes k = oprobe c.probes[k] := by
      show (c.probes[k]?.map oprobe).getD _ = _
      rw [List.getElem?_eq_getElem hk]
      rfl
    rw [e]
    have v := hp _ (List.getElem_mem hk)
    obtain ⟨l, -, f⟩ := hs.probes
    have i := (f.get (by rw [f.length_eq]; exact hk) hk).inside
    simp only [List.get_eq_getElem] at i
    exact ⟨v.known, v.every, ⟨v.rows, i.2.1⟩, ⟨v.cols, i.2.2.2⟩, v.edge⟩

section
variable {b : Build} {a : Algos} (hb : Selects b a) {j : Json ℝ} {c : Conf ℝ} {at_ : List (String × Attr ℝ)}
  (hr : start (checks light freqConst debyeConst) b j = .ok (c, at_))
  (hm : ∀ ms, Limits.check light freqConst debyeConst (limitsOf c) = .ok ms → Limits.Msg.timeStep ∉ ms)
  (hu : Usable c) {x : Random} (hx : x.Fair) (hc : ∀ s ∈ (setup a c x).species, (setup a c x).Cold s) (hk : Pusher.Relativistic a.pusher)
include hb hr hm hu hx hc hk

/-- **C117** (partial: undivided, half the largest time step, no beams, probes that can be served).  From the file to the results: the run of an
accepted file is determined by the random numbers; no particle is ever lost, outside or too fast; the program comes to its end, and then
every probe of the file has its frames, `⌊end / step⌋ / schedule + 1` of them, each with the field, current or map of the species it names
after `f * schedule + 1` steps. -/
theorem C117_run_partial (h1 : c.geo.domR = 1) (h2 : c.geo.domZ = 1) (hh : light * c.time.step ≤ c.geo.cellR / 2 ∧ light * c.time.step ≤ c.geo.cellZ / 2)
    (nb : c.beams = []) (hn : c.geo.nr < 2 ^ 15 ∧ c.geo.nz < 2 ^ 15) (hp : ∀ p ∈ c.probes, Served c p) (he : 0 ≤ c.time.stop)
    (hN : ⌊c.time.stop / c.time.step⌋ + 1 ≤ 2 ^ 31) {S : State} (st : Starts (setup a c x) S) {F0 : Files} (h0 : F0.Start (oenv a c)) :
    ∃ hist : Nat → State, (∀ n T, Run (env a c) S n T ↔ T = hist n) ∧
      (∀ n, Alive (env a c) (c.species.map (·.id)) (hist n) ∧
        ∀ s ∈ c.species, (tagsOf (env a c) (hist n).D s.id).Perm (tagsOf (env a c) S.D s.id)) ∧
      ∃ u F, Out.MainLoop (c.time, 0) u ∧ (∀ u', Out.MainLoop (c.time, 0) u' → u' = u) ∧ record (oenv a c) hist F0 u.2 = .ok (u.1.current, F) ∧
        ∀ k p, c.probes[k]? = some p →
          (∀ n f, (n, f) ∈ fieldNames → p.component = n.toList →
            ((F.sets k).rows : Int) = ⌊c.time.stop / c.time.step⌋ / p.schedule + 1 ∧
            ∀ m, m < (F.sets k).rows → ShowsFrame p.dims ((F.sets k).frame m) fun X Y => (hist (m * p.schedule + 1)).M 0 0 f X Y) ∧
          ∀ n V (i : Nat) s, (n, V) ∈ mapNames → p.component = n.toList → c.species[i]? = some s → s.name = p.specie →
            ((F.sets k).rows : Int) = ⌊c.time.stop / c.time.step⌋ / p.schedule + 1 ∧
            ∀ m, m < (F.sets k).rows → ShowsFrame p.dims ((F.sets k).frame m)
              fun X Y => V ⟨pi, light, limit, elCharge, s.mass * elMass⟩ ⟨c.geo.cellR, c.geo.cellZ, 0, 0, c.geo.nr, c.geo.nz⟩
                (particlesOf (env a c) (hist (m * p.schedule + 1)) i) X Y := by
  have sane := C117_sane hb hr hm hu hx
  obtain ⟨hs, -, -, -⟩ := (C115_start _ b _ _ _ _ hb.spatial hb.speedy hb.pusher hb.deposition hb.yee j c at_).1 hr
  have bs : beamsOf c = [] := by
    unfold beamsOf
    rw [nb]
    rfl
  have ids : (setup a c x).ids = c.species.map (·.id) := by
    unfold Setup.ids
    rw [setup_ids hs]
    show _ ++ (beamsOf c).map _ = _
    rw [bs, List.map_nil, List.append_nil]
  have half : HalfCell (env a c) := hh
  have w : (oenv a c).Watched := watched hs hu hn hp
  have A0 := begun_single sane.chamber h1 h2 (C110_start_partial sane hc st)
  rw [ids] at A0
  have nd : (c.species.map (·.id)).Nodup := (List.nodup_append.mp hu.ids).1
  have names : (oenv a c).names = c.species.map (·.name) := by
    show _ ++ (beamsOf c).map _ = _
    rw [bs, List.map_nil, List.append_nil]
  obtain ⟨hist, run, fin⟩ := C111_single (O := oenv a c) w sane.chamber hk (scheme _) h1 h2 half (by rw [names]; exact hs.speciesNames) nd A0 h0
  refine ⟨hist, run, fun n => ?_, ?_⟩
  · obtain ⟨S', r, al, pm⟩ := C97_single sane.chamber hk (scheme _) h1 h2 half nd A0 n
    obtain rfl : S' = hist n := (run n S').1 ((r S').2 rfl)
    exact ⟨al, fun s hsm => pm _ (List.mem_map_of_mem hsm)⟩
  · obtain ⟨u0, F, m1, m2, rec, fr⟩ := fin c.time.stop he hN
    obtain ⟨v0, n1, -, n3, n4⟩ := Out.C43_steps (0 : ℝ) c.time.stop c.time.step hu.step
    obtain ⟨u, k1, k2, k3, k4⟩ := Out.C43_steps c.time.start c.time.stop c.time.step hu.step
    have et : c.time = Out.initTime c.time.start c.time.stop c.time.step := by
      unfold Out.initTime
      have := hs.current
      cases hct : c.time
      rw [hct] at this
      dsimp only at this ⊢
      rw [this]
    obtain rfl := m2 v0 n1
    have e2 : v0.2 = u.2 := by
      have : (v0.2 : Int) = u.2 := n3.trans k3.symm
      exact_mod_cast this
    refine ⟨u, F, ?_, ?_, ?_, ?_⟩
    · rw [et]
      exact k1
    · intro u' hu'
      rw [et] at hu'
      exact k2 u' hu'
    · rw [k4, ← e2, ← n4]
      exact rec
    · intro k p hkp
      obtain ⟨hlt, ek⟩ := List.getElem?_eq_some_iff.1 hkp
      have ep : (oenv a c).probes k = oprobe p := by
        show (c.probes[k]?.map oprobe).getD _ = _
        rw [hkp]
        rfl
      obtain ⟨f1, f2⟩ := fr k hlt
      rw [ep] at f1 f2
      refine ⟨f1, ?_⟩
      intro n V i s hV hcomp hi hname
      have := f2 n V i hV hcomp (by rw [names, List.getElem?_map, hi, Option.map_some, hname]; rfl)
      have par : (oenv a c).par i = ⟨pi, light, limit, elCharge, s.mass * elMass⟩ := by
        show (⟨pi, light, limit, elCharge, massOf c _⟩ : Maps.Par) = _
        rw [getD_species hi, mass_eq hu (List.mem_of_getElem? hi)]
      rw [par] at this
      exact this

/-- **C117** (partial: undivided, half the largest time step).  With beams: the run goes on for any number of steps, whatever the random numbers of the
beams; no particle of the plasma is ever lost, none is outside or too fast. -/
theorem C117_beams_partial (h1 : c.geo.domR = 1) (h2 : c.geo.domZ = 1) (hh : light * c.time.step ≤ c.geo.cellR / 2 ∧ light * c.time.step ≤ c.geo.cellZ / 2)
    (hbm : Bunched c) {S : BState} (st : Starts (setup a c x) S.s) (n : Nat) :
    (∃ T, BRun (benv a c) S n T) ∧ ∀ T, BRun (benv a c) S n T → BAlive (benv a c) (setup a c x).ids T ∧
      (∀ s ∈ c.species, (tagsOf (env a c) T.s.D s.id).Perm (tagsOf (env a c) S.s.D s.id)) ∧ ∃ T', BStep (benv a c) (n * c.time.step) T T' := by
  have sane := C117_sane hb hr hm hu hx
  obtain ⟨hs, -, -, -⟩ := (C115_start _ b _ _ _ _ hb.spatial hb.speedy hb.pusher hb.deposition hb.yee j c at_).1 hr
  have eb : (setup a c x).beams = (benv a c).beams.map (·.id) := by
    show (beamsOf c).map _ = ((beamsOf c).map _).map _
    rw [List.map_map]
    rfl
  have G : BeamChamber (benv a c) := by
    refine ⟨sane.chamber, ?_, ?_, hbm.rows, hbm.flat⟩
    · intro q hq
      obtain ⟨p, hp, rfl⟩ := List.mem_map.mp hq
      obtain ⟨m1, m2⟩ := beams_sub hp
      have pos : 0 < p.1.bunches := by
        have := (List.mem_filter.mp hp).2
        simpa using this
      obtain ⟨⟨g1, g2, g3, g4⟩, ⟨g5, g6⟩, g7⟩ := hbm.beams p.1 m1 pos
      refine ⟨⟨g1, g2, g3, g4, g5, ?_, hbm.amounts _ m2⟩, g7, g6⟩
      show 1 ≤ p.1.bunches.toNat
      omega
    · rw [← eb]
      exact (List.nodup_append.mp sane.ids).2.1
  obtain ⟨e1, e2⟩ := C110_beams sane hc G rfl eb hk (scheme _) h1 h2 hh st n
  refine ⟨e1, fun T r => ?_⟩
  obtain ⟨q1, q2, q3⟩ := e2 T r
  refine ⟨q1, fun s hsm => ?_, q3⟩
  exact q2 _ (by rw [setup_ids hs]; exact List.mem_map_of_mem hsm)

/-- **C117** (partial: as long as no particle arrives exactly at a border, no beams).  With a division into domains. -/
theorem C117_divided_partial (nb : c.beams = []) {S : State} (st : Starts (setup a c x) S) (n : Nat)
    (B : ∀ k T, k < n → Run (env a c) S k T → NoBorder (env a c) T) :
    ∃ S', (∀ T, Run (env a c) S n T ↔ T = S') ∧ (0 < n → Alive (env a c) (c.species.map (·.id)) S') ∧
      ∀ s ∈ c.species, (tagsOf (env a c) S'.D s.id).Perm (tagsOf (env a c) S.D s.id) := by
  have sane := C117_sane hb hr hm hu hx
  obtain ⟨hs, -, -, -⟩ := (C115_start _ b _ _ _ _ hb.spatial hb.speedy hb.pusher hb.deposition hb.yee j c at_).1 hr
  have ids : (setup a c x).ids = c.species.map (·.id) := by
    unfold Setup.ids
    rw [setup_ids hs]
    show _ ++ (beamsOf c).map _ = _
    unfold beamsOf
    rw [nb, List.zip_nil_left, List.filter_nil, List.map_nil, List.append_nil]
  obtain ⟨S', e1, e2, e3⟩ := C110_run_partial sane hc hk (scheme _) st n B
  rw [ids] at e2 e3
  exact ⟨S', e1, e2, fun s hsm => e3 _ (List.mem_map_of_mem hsm)⟩

end

/-! ### What the checks let through -/

/-- **C117**, refuted: a file whose first probe is never due (`"schedule": 0`) is accepted; its output is undefined in the first step. -/
theorem C117_schedule_fails {a : Algos} {c : Conf ℝ} (h0 : c.time.step ≠ 0) {p : ProbeData} {l : List ProbeData} (hp : c.probes = p :: l)
    (hz : p.schedule = 0) (hist : Nat → State) (F0 : Files) : record (oenv a c) hist F0 1 = .ub := by
  have e : Out.stepNo id (0 : ℝ) (oenv a c).E.p.dt = .ok 0 := by
    unfold Out.stepNo
    rw [if_neg (show (oenv a c).E.p.dt ≠ 0 from h0)]
    norm_num
  have f : ∀ S F, outputs (oenv a c) S 0 F = .ub := by
    intro S F
    unfold outputs
    have hc : (oenv a c).count = l.length + 1 := by
      show c.probes.length = _
      rw [hp, List.length_cons]
    have hs : ((oenv a c).probes 0).schedule = 0 := by
      show ((c.probes[0]?.map oprobe).getD _).schedule = 0
      rw [hp]
      exact hz
    rw [hc, List.range_succ_eq_map, loop_cons]
    unfold prepareAt Out.frame
    rw [hs, if_pos rfl]
    rfl
  show (record (oenv a c) hist F0 0 >>= _) = _
  show (Res.ok (0, F0) >>= _) = _
  rw [Res.ok_bind]
  show (Out.stepNo id (0 : ℝ) _ >>= _) = _
  rw [e, Res.ok_bind, f]
  rfl

/-! ### Example -/

/-- The default build with one domain and the Vay pusher. -/
def exBuild : Build := ⟨[], [], [], [], false, false, some .flat, some .thermal, some .vay, some .zigzag, true, true, true, false, false, none⟩

def exAlgos : Algos := ⟨.flat, .thermal, .vay, .zigzag, true⟩

/-- A neutral plasma of electrons and ions in a chamber of four by four metres and cells, with two probes. -/
noncomputable def exFile (schedule : ℝ) : Json ℝ :=
  .obj [("comment", .str []), ("macro_amount", .num 100), ("beam_plasma_macro_size_ratio", .num 1), ("log_file", .str ['l']),
    ("geometry", .obj [
      ("size", .obj [("radius", .num 4), ("longitude", .num 4)]),
      ("grid", .obj [("radius", .num 4), ("longitude", .num 4)]), ("domains_amount", .obj [("radius", .num 1), ("longitude", .num 1)]),
      ("pml", .obj [("left_wall", .num 0), ("right_wall", .num (1 / 4)), ("outer_wall", .num (1 / 4)), ("sigma_1", .num 1), ("sigma_2", .num 2)])]),
    ("time", .obj [("start", .num 0), ("end", .num 1e-7), ("step", .num 1e-9)]),
    ("particles", .arr [
      .obj [("name", .str ['e', 'l', 'e', 'c', 't', 'r', 'o', 'n', 's']), ("charge", .num (-1)), ("mass", .num 1), ("density", .num 1),
        ("temperature", .num (1 / 100))],
      .obj [("name", .str ['i', 'o', 'n', 's']), ("charge", .num 1), ("mass", .num 1836), ("density", .num 1), ("temperature", .num (1 / 100))]]),
    ("beams", .arr []),
    ("data", .obj [("data_root", .str ['.']), ("compression", .obj [("use", .bool false), ("level", .num 1)]),
      ("probes", .arr [
        .obj [("component", .str ['E', '/', 'r']), ("schedule", .num schedule), ("shape", .str ['r', 'e', 'c']),
          ("start", .obj [("r", .num 0), ("z", .num 0)]), ("end", .obj [("r", .num 4), ("z", .num 4)])],
        .obj [("component", .str ['d', 'e', 'n', 's', 'i', 't', 'y']), ("specie", .str ['i', 'o', 'n', 's']), ("schedule", .num 5),
          ("shape", .str ['r', 'e', 'c']), ("start", .obj [("r", .num 1), ("z", .num 0)]), ("end", .obj [("r", .num 2), ("z", .num 4)])]]),
      ("plot", .obj [
        ("subplot", .obj [("cmap", .null), ("ticks", .obj [("x_amount", .num 20), ("y_amount", .num 8), ("z_amount", .num 20), ("cbar_amount", .num 5)])]),
        ("figure", .obj [("color", .null), ("width", .num 19), ("height", .num 10), ("dpi", .num 150),
          ("font", .obj [("family", .null), ("size", .num 10), ("name", .null)])]),
        ("video", .obj [("codec", .null), ("fps", .num 10), ("bitrate", .num 32000)])])])]

def exIdE : Nat := SMB.hashStr 1394 (['e', 'l', 'e', 'c', 't', 'r', 'o', 'n', 's'].map Char.toNat)
def exIdI : Nat := SMB.hashStr 1394 (['i', 'o', 'n', 's'].map Char.toNat)

noncomputable def exConf (schedule : Nat) : Conf ℝ :=
  { log := ['l'], total := 100, ratio := 1,
    geo := ⟨4, 4, 4, 4, 1, 1, 4, 4, 0, 1, 1, 1, 1⟩, sigma1 := 1, sigma2 := 2, time := ⟨0, 1e-7, 1e-9, 0⟩,
    species := [⟨exIdE, ['e', 'l', 'e', 'c', 't', 'r', 'o', 'n', 's'], 1, -1, 1, 1, 1 / 100⟩, ⟨exIdI, ['i', 'o', 'n', 's'], 1836, 1, 1, 1, 1 / 100⟩],
    beams := [], amounts := ([50, 50], []), root := ['.'], compress := false, level := 1,
    probes := [⟨['E', '/', 'r'], "unknown".toList, Probe.path ['E', '/', 'r'] "unknown".toList (.rect ⟨0, 0, 4, 4⟩), ⟨0, 0, 4, 4⟩, schedule⟩,
      ⟨['d', 'e', 'n', 's', 'i', 't', 'y'], ['i', 'o', 'n', 's'],
        Probe.path ['d', 'e', 'n', 's', 'i', 't', 'y'] ['i', 'o', 'n', 's'] (.rect ⟨1, 0, 2, 4⟩), ⟨1, 0, 2, 4⟩, 5⟩],
    electric := none, magnetic := none }

theorem cut_int {x : ℝ} {n : Int} (h : x = n) : Cut x n := by
  unfold Cut
  subst h
  split_ifs <;> constructor <;> linarith

theorem cut_nat {x : ℝ} {n : Nat} (h : x = n) : Cut x (n : Int) := cut_int (by rw [h]; norm_cast)

theorem ex_says (m : Nat) (hm : m < 2 ^ 31) : Says exBuild (exFile m) (exConf m) where
  pusher := by decide
  log := rfl
  total := rfl
  ratio := ⟨1, rfl, cut_nat (by norm_num [exConf]), by norm_num [exConf]⟩
  sizeR := ⟨rfl, by norm_num [exConf]⟩
  sizeZ := ⟨rfl, by norm_num [exConf]⟩
  gridR := ⟨⟨4, rfl, cut_nat (by norm_num [exConf]), by norm_num [exConf]⟩, by norm_num [exConf]⟩
  gridZ := ⟨⟨4, rfl, cut_nat (by norm_num [exConf]), by norm_num [exConf]⟩, by norm_num [exConf]⟩
  cellR := by norm_num [exConf]
  cellZ := by norm_num [exConf]
  all := ⟨rfl, rfl⟩
  layers := by
    rw [if_pos (by rfl)]
    exact ⟨⟨0, rfl, by norm_num [exConf], by norm_num [exConf], by norm_num [exConf]⟩, ⟨1 / 4, rfl, by norm_num [exConf], by norm_num [exConf], by norm_num [exConf]⟩,
      ⟨1 / 4, rfl, by norm_num [exConf], by norm_num [exConf], by norm_num [exConf]⟩, rfl, rfl⟩
  domains := by
    rw [if_pos (by rfl)]
    exact ⟨rfl, rfl⟩
  begins := rfl
  stops := rfl
  step := rfl
  current := rfl
  species := ⟨_, rfl, .cons ⟨rfl, ⟨1, ⟨1, rfl, cut_int (by norm_num), by norm_num, by norm_num⟩, by decide⟩, ⟨-1, rfl, cut_int (by norm_num [exConf]), by norm_num [exConf], by norm_num [exConf]⟩, rfl, rfl, rfl, rfl⟩
    (.cons ⟨rfl, ⟨1836, ⟨1836, rfl, cut_int (by norm_num), by norm_num, by norm_num⟩, by decide⟩, ⟨1, rfl, cut_int (by norm_num [exConf]), by norm_num [exConf], by norm_num [exConf]⟩, rfl, rfl, rfl, rfl⟩ .nil)⟩
  speciesNames := by
    show [['e', 'l', 'e', 'c', 't', 'r', 'o', 'n', 's'], ['i', 'o', 'n', 's']].Nodup
    decide
  beams := ⟨[], rfl, .nil⟩
  beamNames := List.nodup_nil
  amounts := by
    rw [if_neg (by rintro ⟨e, -⟩; cases e)]
    have e : shareSum (exConf m) = 32 := by norm_num [shareSum, exConf]
    refine ⟨by rw [e]; norm_num, ⟨rfl, ?_⟩, .nil⟩
    intro n hn
    have : n = 50 := by simpa [exConf] using hn
    subst this
    exact ⟨cut_nat (by rw [e]; norm_num [exConf]), by norm_num⟩
  root := rfl
  compress := rfl
  level := ⟨1, rfl, cut_int (by norm_num [exConf]), by norm_num [exConf], by norm_num [exConf]⟩
  probes := ⟨_, rfl, .cons ⟨rfl, .inr ⟨fun s e => (by cases e), rfl⟩, rfl, ⟨0, rfl, cut_nat (by norm_num), by norm_num⟩, ⟨0, rfl, cut_nat (by norm_num), by norm_num⟩,
      ⟨4, rfl, cut_nat (by norm_num), by norm_num⟩, ⟨4, rfl, cut_nat (by norm_num), by norm_num⟩, (by show 0 ≤ 4 ∧ 4 ≤ 4 ∧ 0 ≤ 4 ∧ 4 ≤ 4; decide),
      ⟨m, ⟨m, rfl, cut_int (by norm_cast), by omega, by omega⟩, by unfold toU32; show m = _; omega⟩, rfl⟩
    (.cons ⟨rfl, .inl rfl, rfl, ⟨1, rfl, cut_nat (by norm_num), by norm_num⟩, ⟨0, rfl, cut_nat (by norm_num), by norm_num⟩,
      ⟨2, rfl, cut_nat (by norm_num), by norm_num⟩, ⟨4, rfl, cut_nat (by norm_num), by norm_num⟩, (by show 1 ≤ 2 ∧ 2 ≤ 4 ∧ 0 ≤ 4 ∧ 4 ≤ 4; decide),
      ⟨5, ⟨5, rfl, cut_int (by norm_num), by norm_num, by norm_num⟩, by decide⟩, rfl⟩ .nil)⟩
  fields := by
    rw [if_neg (by decide)]
    exact ⟨rfl, rfl⟩

theorem ex_selects : Selects exBuild exAlgos := ⟨rfl, rfl, rfl, rfl, rfl, rfl, rfl, rfl, rfl⟩

theorem ex_density (m : Nat) : Limits.electrons (limitsOf (exConf m)).species = (1, 1 / 100) ∧ Limits.ions (limitsOf (exConf m)).species = (1, 1 / 100) := by
  constructor
  · norm_num [Limits.electrons, limitsOf, exConf, Limits.electronNames]
  · have h1 : (['i', 'o', 'n', 's'] : List Char) ∈ Limits.ionNames := by decide
    have h2 : (['e', 'l', 'e', 'c', 't', 'r', 'o', 'n', 's'] : List Char) ∉ Limits.ionNames := by decide
    norm_num [Limits.ions, limitsOf, exConf, h1, h2]

theorem ex_check (m : Nat) : ∃ ms, Limits.check light freqConst debyeConst (limitsOf (exConf m)) = .ok ms ∧ Limits.Msg.timeStep ∉ ms := by
  obtain ⟨d1, d2⟩ := ex_density m
  have ht : ¬ Limits.maxTime light freqConst (limitsOf (exConf m)) < (limitsOf (exConf m)).step := by
    unfold Limits.maxTime Limits.plasmaFrequency
    rw [d1, not_lt]
    refine le_min (le_min ?_ ?_) ?_
    · norm_num [limitsOf, exConf, light]
    · norm_num [limitsOf, exConf, light]
    · rw [Real.sqrt_one]
      norm_num [limitsOf, exConf, freqConst]
  unfold Limits.check
  rw [if_neg (by show ¬ (Limits.badDomains 1 || Limits.badDomains 1) = true; decide)]
  rw [d1, d2]
  dsimp only
  rw [if_neg one_ne_zero, if_neg ht]
  unfold Limits.debyeLength
  rw [if_neg (by norm_num), if_neg (by norm_num), Res.ok_bind]
  refine ⟨_, rfl, ?_⟩
  simp only [List.nil_append, List.mem_append]
  rintro (h | h)
  · rw [if_pos (by norm_num)] at h
    simp only [List.mem_append] at h
    rcases h with (h | h) | h <;> split_ifs at h <;> simp at h
  · split_ifs at h <;> simp at h

theorem ex_start (m : Nat) (hm : m < 2 ^ 31) : ∃ at_, start (checks light freqConst debyeConst) exBuild (exFile m) = .ok (exConf m, at_) := by
  obtain ⟨ms, h, -⟩ := ex_check m
  exact ⟨_, (C115_start _ exBuild _ _ _ _ rfl rfl rfl rfl rfl _ _ _).2
    ⟨ex_says m hm, by unfold checks; rw [h]; rfl, by simp [exConf], [], rfl, rfl⟩⟩

theorem ex_usable (m : Nat) : Usable (exConf m) where
  sizeR := by norm_num [exConf]
  sizeZ := by norm_num [exConf]
  step := by norm_num [exConf]
  cellR := by norm_num [exConf]
  cellZ := by norm_num [exConf]
  div := ⟨le_refl 1, le_refl 1, by show 2 * 1 ≤ 4; decide, by show 2 * 1 ≤ 4; decide, by show 4 < 2 ^ 31; decide, by show 4 < 2 ^ 31; decide,
    one_dvd _, one_dvd _, .inl rfl⟩
  mass := ⟨by simp [exConf], by simp [exConf]⟩
  plasma := by
    intro s hs
    simp only [exConf, List.mem_cons, List.not_mem_nil, or_false] at hs
    rcases hs with rfl | rfl <;> norm_num
  ids := by
    show [exIdE, exIdI].Nodup
    decide

noncomputable def exRandom : Random := ⟨fun _ _ _ _ => 1/2, fun _ _ _ _ => 1/3, fun _ _ _ _ => Real.exp (-Real.exp 1), fun _ _ _ => [], fun _ _ _ _ => (1, 1/2, -1)⟩

theorem ex_fair : exRandom.Fair := ⟨fun _ _ _ _ => by norm_num [exRandom], fun _ _ _ _ => by norm_num [exRandom],
  fun _ _ _ _ => ⟨(Vel.ex_unit 1).1.le, (Vel.ex_unit 1).2⟩, fun _ _ _ _ => by norm_num [exRandom, Vel.InCube]⟩

theorem ex_mild (m : Nat) : Mild exAlgos (exConf m) := by
  intro s hs
  simp only [exConf, List.mem_cons, List.not_mem_nil, or_false] at hs
  show s.temperature < 0.1
  rcases hs with rfl | rfl <;> norm_num

theorem ex_served (m : Nat) (h1 : 1 ≤ m) (h2 : m < 65536) : ∀ p ∈ (exConf m).probes, Served (exConf m) p := by
  intro p hp
  simp only [exConf, List.mem_cons, List.not_mem_nil, or_false] at hp
  have edge : ∀ (q : Probe.Rect) (i : Nat), 0 < i → i < (exConf m).geo.domR → low (exConf m).geo.nr (exConf m).geo.domR i ≠ q.r0 ∧ low (exConf m).geo.nr (exConf m).geo.domR i ≠ q.r1 := by
    intro q i a b
    have : i < 1 := b
    omega
  rcases hp with rfl | rfl
  · exact ⟨by show ['E', '/', 'r'] ∈ _; decide, ⟨h1, h2⟩, by show 0 < 4; decide, by show 0 < 4; decide, edge _⟩
  · exact ⟨by decide, by decide, by decide, by decide, edge _⟩

/-- The hypotheses of `C117_run_partial`: the file is accepted without complaint, a run begins. -/
example : ∃ at_ S F0, start (checks light freqConst debyeConst) exBuild (exFile (2 : Nat)) = .ok (exConf 2, at_) ∧ Selects exBuild exAlgos ∧
    (∀ ms, Limits.check light freqConst debyeConst (limitsOf (exConf 2)) = .ok ms → Limits.Msg.timeStep ∉ ms) ∧ Usable (exConf 2) ∧ exRandom.Fair ∧
    (∀ s ∈ (setup exAlgos (exConf 2) exRandom).species, (setup exAlgos (exConf 2) exRandom).Cold s) ∧ Pusher.Relativistic exAlgos.pusher ∧
    (light * (exConf 2).time.step ≤ (exConf 2).geo.cellR / 2 ∧ light * (exConf 2).time.step ≤ (exConf 2).geo.cellZ / 2) ∧
    (∀ p ∈ (exConf 2).probes, Served (exConf 2) p) ∧ ⌊(exConf 2).time.stop / (exConf 2).time.step⌋ + 1 ≤ 2 ^ 31 ∧
    Starts (setup exAlgos (exConf 2) exRandom) S ∧ Files.Start (oenv exAlgos (exConf 2)) F0 := by
  obtain ⟨at_, hs⟩ := ex_start 2 (by norm_num)
  obtain ⟨ms, hms, hn⟩ := ex_check 2
  have hq : ∀ ms', Limits.check light freqConst debyeConst (limitsOf (exConf 2)) = .ok ms' → Limits.Msg.timeStep ∉ ms' := by
    intro ms' e
    rw [hms] at e
    cases e
    exact hn
  have sane := C117_sane ex_selects hs hq (ex_usable 2) ex_fair
  have cold := C117_cold (ex_usable 2) (ex_mild 2) exRandom
  obtain ⟨S, st⟩ := C110_exists sane (fun s h => .inr (cold s h)) (by
    intro s h
    obtain ⟨t, ht, n, hn, rfl⟩ := mem_species h
    have e50 : n = 50 := by simpa [exConf] using hn
    subst e50
    refine ⟨by norm_num, ?_, ?_, .inl ⟨ex_mild 2 t ht, fun _ _ _ => ?_⟩⟩
    · norm_num [setup, env, exConf]
    · show 4 * 4 ≤ 2 ^ 31
      norm_num
    · show Vel.lnln (Real.exp (-Real.exp 1)) ≠ 2
      rw [Vel.ex_lnln]
      norm_num)
  obtain ⟨F0, h0⟩ := start_exists (watched (a := exAlgos) (ex_says 2 (by norm_num)) (ex_usable 2) (by constructor <;> norm_num [exConf]) (ex_served 2 (by norm_num) (by norm_num)))
  refine ⟨at_, S, F0, hs, ex_selects, hq, ex_usable 2, ex_fair, cold, .inr (.inl rfl), ?_, ex_served 2 (by norm_num) (by norm_num), ?_, st, h0⟩
  · norm_num [exConf, light]
  · have : ⌊(exConf 2).time.stop / (exConf 2).time.step⌋ = 100 := by
      rw [Int.floor_eq_iff]
      norm_num [exConf]
    rw [this]
    norm_num

/-- A file that is accepted and whose output is undefined. -/
example : ∃ at_, start (checks light freqConst debyeConst) exBuild (exFile (0 : Nat)) = .ok (exConf 0, at_) ∧
    ∀ hist F0, record (oenv exAlgos (exConf 0)) hist F0 1 = .ub := by
  obtain ⟨at_, hs⟩ := ex_start 0 (by norm_num)
  exact ⟨at_, hs, fun hist F0 => C117_schedule_fails (by norm_num [exConf]) rfl rfl hist F0⟩

end PicConf
end Pico
