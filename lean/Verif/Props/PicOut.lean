import Verif.Lemmas.PicOut
import Verif.Props.DumpMaps
import Verif.Props.PicSame
import Verif.Props.Species

/-!
# What a run leaves in the output file  (C111)
-/

set_option linter.unusedSimpArgs false
set_option linter.unusedVariables false
set_option linter.unusedSectionVars false

namespace Pico
namespace Pic

open SMB Yee

theorem frames_iff {s N f : Nat} (hs : 1 ≤ s) : f < frames s N ↔ f * s < N := by
  unfold frames
  rw [Nat.lt_div_iff_mul_lt (by omega)]
  have := Nat.mul_comm f s
  omega

theorem fieldOf_name {n : String} {c : Comp} (h : (n, c) ∈ fieldNames) : fieldOf n.toList = some c := by
  unfold fieldNames at h
  simp only [List.mem_cons, List.not_mem_nil, or_false, Prod.mk.injEq] at h
  rcases h with ⟨rfl, rfl⟩ | ⟨rfl, rfl⟩ | ⟨rfl, rfl⟩ | ⟨rfl, rfl⟩ | ⟨rfl, rfl⟩ | ⟨rfl, rfl⟩ | ⟨rfl, rfl⟩ | ⟨rfl, rfl⟩ | ⟨rfl, rfl⟩ <;> rfl

theorem lookup_at {names : List (List Char)} (nd : names.Nodup) {n : List Char} {s : Nat} (h : names[s]? = some n) :
    Dump.lookup names n = some s := by
  have k := Species.lookup_spec names n
  cases e : Dump.lookup names n with
  | none =>
    rw [e] at k
    exact absurd (List.mem_of_getElem? h) k
  | some i =>
    rw [e] at k
    obtain ⟨a, _⟩ := k
    obtain ⟨h1, h2⟩ := List.getElem?_eq_some_iff.mp h
    obtain ⟨a1, a2⟩ := List.getElem?_eq_some_iff.mp a
    rw [(List.Nodup.getElem_inj_iff nd).mp (a2.trans h2.symm)]

/-- A field or current probe sees the grid of the whole chamber. -/
theorem seen_field {O : OEnv} {p : OProbe} {n : String} {c : Comp} (hn : (n, c) ∈ fieldNames) (hp : p.component = n.toList) (S : State)
    (maps : Nat → Dump.SMaps) : seenBy O S maps p = some fun X Y : Nat => glue O.E S.M c X Y := by
  unfold seenBy
  rw [hp, fieldOf_name hn]

/-- **C111 (fields and currents), partial.**  Attach the output to any run: whatever the states `hist 0, hist 1, …` a run goes
through (as long as the particles are in their domains), for any list of admissible probes, the output never fails, and after
`N` steps — the run may be interrupted after any of them — the dataset of every field or current probe has exactly one frame
for every multiple of its schedule below `N`; frame `f` shows, at every cell of the rectangle and nowhere else, the field of
the whole chamber after `f * schedule + 1` steps.  Missing: radial edges on borders between domains, chambers of 32768 cells and
more, schedules of 0 or from 65536 on, rounding of the clock (C42, C44: false of the code). -/
theorem C111_fields_partial {O : OEnv} (h : O.Watched) (hist : Nat → State) {F0 : Files} (h0 : F0.Start O) (N : Nat) (hN : N ≤ 2 ^ 31)
    (hh : ∀ n, n < N → Held O.E (hist (n + 1))) :
    ∃ F, record O hist F0 N = .ok (N * O.E.p.dt, F) ∧
      ∀ k n c, k < O.count → (n, c) ∈ fieldNames → (O.probes k).component = n.toList →
        (F.sets k).rows = max 1 (frames (O.probes k).schedule N) ∧
        (∀ f, f < frames (O.probes k).schedule N → ShowsFrame (O.probes k).rect ((F.sets k).frame f)
          fun X Y => glue O.E (hist (f * (O.probes k).schedule + 1)).M c X Y) ∧
        ∀ f, frames (O.probes k).schedule N ≤ f → ∀ a b, ((F.sets k).frame f).cell a b = none := by
  obtain ⟨F, P, e, _, _, st⟩ := record_ok h hist h0 N hN hh
  refine ⟨F, e, fun k n c hk hn hp => ?_⟩
  have ev := (h.probes k hk).every.1
  obtain ⟨a, b⟩ := st k hk
  refine ⟨a, fun f hf => ?_, fun f hf x y => ?_⟩
  · have := (b f).1 ((frames_iff ev).mp hf)
    rw [seen_field hn hp] at this
    exact this
  · rw [(b f).2 fun c => absurd ((frames_iff ev).mpr c) (by omega)]
    rfl

/-- The maps of a species: name in the configuration and what the user expects to see at a cell, given the constants, the grid
and the particles of the species (density, energy and momentum of C88 and C95). -/
noncomputable def mapNames : List (String × (Maps.Par → Geom ℝ → List Maps.VP → Int → Int → ℝ)) :=
  [("density", Maps.dens), ("energy", Dump.energyAt), ("momentum/r", Dump.meanR), ("momentum/phi", Dump.meanPhi), ("momentum/z", Dump.meanZ)]

theorem owner_at {n d X : Nat} (hd : 1 ≤ d) (h2 : 2 * d ≤ n) (h4 : d ∣ n) (hX : X < n) :
    X / (n / d) < d ∧ low n d (X / (n / d)) ≤ X ∧ X < low n d (X / (n / d) + 1) := by
  have hp : 0 < n / d := Nat.div_pos (by omega) hd
  have e : d * (n / d) = n := Nat.mul_div_cancel' h4
  rw [low_mul hd h4, low_mul hd h4]
  refine ⟨?_, Nat.div_mul_le_self _ _, ?_⟩
  · rw [Nat.div_lt_iff_lt_mul hp, e]
    exact hX
  · have := Nat.lt_div_mul_add hp (a := X)
    rw [Nat.succ_mul]
    exact this

/-- What a map probe sees, cell by cell. -/
theorem map_cells {O : OEnv} (h : O.Watched) {S : State} {maps : Nat → Dump.SMaps} (hm : Dump.AllGood (worldOf O S) maps) {c : List Char}
    {get : Maps.St → Grid ℝ} (eg : mapOf c = some get) {s : Nat} {V : Int → Int → ℝ}
    (hv : ∀ i j x y, Dump.InDom (worldOf O S) i j x y → Dump.Inner i j x y →
      (get (maps s i j)).get x y = .ok (V (x + (worldOf O S).offR i) (y + (worldOf O S).offZ j))) {X Y : Nat} (hX : X < O.E.p.nr) (hY : Y < O.E.p.nz)
    (ha : Away O.E X Y) : mapAt O maps get s X Y = V X Y := by
  obtain ⟨a1, a2, a3⟩ := owner_at h.div.r1 h.div.r2 h.div.r4 hX
  obtain ⟨b1, b2, b3⟩ := owner_at h.div.z1 h.div.z2 h.div.z4 hY
  unfold mapAt
  generalize ei : X / (O.E.p.nr / O.E.domR) = i at *
  generalize ej : Y / (O.E.p.nz / O.E.domZ) = j at *
  have l1 := low_le (n := O.E.p.nr) h.div.r1 a1
  have l2 := low_le (n := O.E.p.nz) h.div.z1 b1
  have s1 := h.smallR
  have s2 := h.smallZ
  obtain ⟨x, rfl⟩ := Nat.exists_eq_add_of_le a2
  obtain ⟨y, rfl⟩ := Nat.exists_eq_add_of_le b2
  rw [Nat.add_sub_cancel_left, Nat.add_sub_cancel_left]
  have sh := map_shape eg (hm s i j a1 b1)
  have k := get_cell (get (maps s i j)) sh (a := x) (b := y)
    (by show x < low O.E.p.nr O.E.domR (i + 1) - low O.E.p.nr O.E.domR i; omega)
    (by show y < low O.E.p.nz O.E.domZ (j + 1) - low O.E.p.nz O.E.domZ j; omega)
    (by show low O.E.p.nr O.E.domR (i + 1) - low O.E.p.nr O.E.domR i < _; omega)
    (by show low O.E.p.nz O.E.domZ (j + 1) - low O.E.p.nz O.E.domZ j < _; omega)
  have k' := hv i j x y ⟨⟨a1, b1⟩, ⟨by omega, by show (x : Int) < ((low O.E.p.nr O.E.domR (i + 1) - low O.E.p.nr O.E.domR i : Nat) : Int); omega⟩,
      by omega, by show (y : Int) < ((low O.E.p.nz O.E.domZ (j + 1) - low O.E.p.nz O.E.domZ j : Nat) : Int); omega⟩
    ⟨fun p => by have := ha.1 i p a1; omega, fun p => by have := ha.2 j p b1; omega⟩
  rw [k] at k'
  have e := Res.ok.inj k'
  rw [e]
  show V (x + (low O.E.p.nr O.E.domR i : Nat)) (y + (low O.E.p.nz O.E.domZ j : Nat)) = _
  congr 1 <;> push_cast <;> ring

theorem density_inner {W : Dump.World} (h : W.Good) {ps : List Dump.Probe} {S S' : Nat → Dump.SMaps} (hS : Dump.AllGood W S)
    (e : Dump.prepare W ps S = .ok S') {s : Nat} (hq : ∃ q ∈ ps, Dump.Prepares W s q) {i j : Nat} {x y : Int} (hd : Dump.InDom W i j x y)
    (hn : Dump.Inner i j x y) : (S' s i j).density.get x y = .ok (Maps.dens (W.par s) W.whole (W.all s) (x + W.offR i) (y + W.offZ j)) := by
  have last : ∀ l : List Dump.Probe, (∃ q ∈ l, Dump.Prepares W s q) →
      ∃ pre q post, l = pre ++ q :: post ∧ Dump.Prepares W s q ∧ ∀ p ∈ post, ¬ Dump.Prepares W s p := by
    intro l
    induction l with
    | nil => rintro ⟨q, hq, _⟩; cases hq
    | cons a l ih =>
      intro hq
      by_cases c : ∃ q ∈ l, Dump.Prepares W s q
      · obtain ⟨pre, q, post, e, k1, k2⟩ := ih c
        exact ⟨a :: pre, q, post, by rw [e]; rfl, k1, k2⟩
      · obtain ⟨q, hq, pq⟩ := hq
        rcases List.mem_cons.mp hq with rfl | hq
        · exact ⟨[], q, l, rfl, pq, fun p hp k => c ⟨p, hp, k⟩⟩
        · exact absurd ⟨q, hq, pq⟩ c
  obtain ⟨pre, q, post, rfl, pq, hpost⟩ := last ps hq
  obtain ⟨⟨hi, hj⟩, ⟨x0, x1⟩, y0, y1⟩ := id hd
  by_cases c : q.comp = .density
  · obtain ⟨S'', e', v⟩ := Dump.C88_density_partial W h pre post q S hS pq.1 c hpost
    obtain rfl := Res.ok.inj (e'.symm.trans e)
    exact v i j hi hj x y x0 x1 y0 y1 fun k => by have := hn.1 k.1.1; have := k.1.2; omega
  · obtain ⟨S'', e', v⟩ := Dump.prepare_last h pre post q S hS pq hpost
    obtain rfl := Res.ok.inj (e'.symm.trans e)
    have := v i j hi hj x y x0 x1 y0 y1
    rw [if_neg c, Dump.dens_inner h hd hn] at this
    exact this

theorem due_mem {O : OEnv} {n k : Nat} (hk : k < O.count) (hd : Due O n k) : (O.probes k).prep ∈ dueOf O n (List.range O.count) := by
  unfold dueOf
  rw [List.mem_map]
  exact ⟨k, List.mem_filter.mpr ⟨List.mem_range.mpr hk, decide_eq_true hd⟩, rfl⟩

theorem due_order {O : OEnv} {n k k' : Nat} (hk : k < O.count) (hl : k' < k) (hd : Due O n k) (hd' : Due O n k') :
    ∃ pre mid post, dueOf O n (List.range O.count) = pre ++ (O.probes k').prep :: (mid ++ (O.probes k).prep :: post) := by
  obtain ⟨m, em⟩ := Nat.exists_eq_add_of_lt hk
  obtain ⟨a, b, ab⟩ := List.append_of_mem (List.mem_range.mpr hl)
  have e : List.range O.count = a ++ k' :: (b ++ k :: (List.range m).map fun x => k + (x + 1)) := by
    rw [em, Nat.add_assoc, List.range_add, List.range_succ_eq_map, ab]
    simp
  rw [e]
  unfold dueOf
  rw [List.filter_append, List.filter_cons_of_pos (p := fun k => decide (Due O n k)) (decide_eq_true hd'), List.filter_append, List.filter_cons_of_pos (p := fun k => decide (Due O n k)) (decide_eq_true hd)]
  simp only [List.map_append, List.map_cons]
  exact ⟨_, _, _, rfl⟩

/-- A map probe. -/
theorem seen_map {O : OEnv} {p : OProbe} {get : Maps.St → Grid ℝ} {s : Nat} (e1 : fieldOf p.component = none) (e2 : mapOf p.component = some get)
    (e3 : Dump.lookup O.names p.specie = some s) (S : State) (maps : Nat → Dump.SMaps) : seenBy O S maps p = some (mapAt O maps get s) := by
  unfold seenBy
  rw [e1, e2, e3]

/-- What every map probe sees at an output, in the cells away from the seams. -/
theorem maps_seen {O : OEnv} (h : O.Watched) (nd : O.names.Nodup) {S : State} (hs : Held O.E S) {n : Nat} {Q P : Nat → Dump.SMaps}
    (hQ : Dump.AllGood (worldOf O S) Q) (e : Dump.prepare (worldOf O S) (dueOf O n (List.range O.count)) Q = .ok P) {k : Nat}
    (hk : k < O.count) (hd : Due O n k) {s : Nat} (hn : O.names[s]? = some (O.probes k).specie) :
    (∀ m V, (m, V) ∈ mapNames → (O.probes k).component = m.toList → ∃ G, seenBy O S P (O.probes k) = some G ∧
      ∀ X Y : Nat, X < O.E.p.nr → Y < O.E.p.nz → Away O.E X Y → G X Y = V (O.par s) (chamberGrid O.E) (particlesOf O.E S s) X Y) ∧
    ((O.probes k).component = "temperature".toList → (∃ k', k' < k ∧ Due O n k' ∧ (O.probes k').component = "energy".toList ∧
        (O.probes k').specie = (O.probes k).specie) → ∃ G, seenBy O S P (O.probes k) = some G ∧
      ∀ X Y : Nat, X < O.E.p.nr → Y < O.E.p.nz → Away O.E X Y →
        G X Y = Dump.temperatureAt (O.par s) (chamberGrid O.E) (particlesOf O.E S s) X Y) := by
  have W := world_good h hs
  have el : Dump.lookup O.names (O.probes k).specie = some s := lookup_at nd hn
  obtain ⟨P', e', c1, c2, c3⟩ := Dump.C95_inside_partial (worldOf O S) W (dueOf O n (List.range O.count)) Q hQ s
  obtain rfl := Res.ok.inj (e'.symm.trans e)
  obtain ⟨P'', e'', gP⟩ := Dump.C88_prepares (worldOf O S) W (dueOf O n (List.range O.count)) Q hQ
  obtain rfl := Res.ok.inj (e''.symm.trans e)
  have wh : (worldOf O S).whole = chamberGrid O.E := by
    show (⟨O.E.p.dr, O.E.p.dz, 0, 0, O.E.p.nr * O.E.domR / O.E.domR, O.E.p.nz * O.E.domZ / O.E.domZ⟩ : Geom ℝ) = _
    rw [Nat.mul_div_cancel _ h.div.r1, Nat.mul_div_cancel _ h.div.z1]
    rfl
  have al : (worldOf O S).all s = particlesOf O.E S s := rfl
  rw [wh, al] at c1 c2 c3
  have mem := due_mem hk hd
  refine ⟨fun m V hV hm => ?_, fun hm hk' => ?_⟩
  · unfold mapNames at hV
    simp only [List.mem_cons, List.not_mem_nil, or_false, Prod.mk.injEq] at hV
    rcases hV with ⟨rfl, rfl⟩ | ⟨rfl, rfl⟩ | ⟨rfl, rfl⟩ | ⟨rfl, rfl⟩ | ⟨rfl, rfl⟩
    · have em : mapOf (O.probes k).component = some Maps.St.density := by rw [hm]; rfl
      refine ⟨_, seen_map (by rw [hm]; rfl) em el S P'', fun X Y hX hY hA => map_cells h gP em (V := Maps.dens (O.par s) (chamberGrid O.E) (particlesOf O.E S s))
        (fun i j x y hd hn => ?_) hX hY hA⟩
      have := density_inner W hQ e ⟨_, mem, el, by show prepComp (O.probes k).component ≠ _; rw [hm]; exact fun k => nomatch k⟩ hd hn
      rw [wh, al] at this
      exact this
    · have em : mapOf (O.probes k).component = some Maps.St.energy := by rw [hm]; rfl
      exact ⟨_, seen_map (by rw [hm]; rfl) em el S P'', fun X Y hX hY hA => map_cells h gP em (V := Dump.energyAt (O.par s) (chamberGrid O.E) (particlesOf O.E S s))
        (fun i j x y hd hn => c1 ⟨_, mem, el, by show prepComp (O.probes k).component = _; rw [hm]; rfl⟩ i j x y hd hn) hX hY hA⟩
    · have em : mapOf (O.probes k).component = some fun m => m.mom.r := by rw [hm]; rfl
      exact ⟨_, seen_map (by rw [hm]; rfl) em el S P'', fun X Y hX hY hA => map_cells h gP em (V := Dump.meanR (O.par s) (chamberGrid O.E) (particlesOf O.E S s))
        (fun i j x y hd hn => (c2 ⟨_, mem, el, by show prepComp (O.probes k).component = _; rw [hm]; rfl⟩ i j x y hd hn).1) hX hY hA⟩
    · have em : mapOf (O.probes k).component = some fun m => m.mom.phi := by rw [hm]; rfl
      exact ⟨_, seen_map (by rw [hm]; rfl) em el S P'', fun X Y hX hY hA => map_cells h gP em (V := Dump.meanPhi (O.par s) (chamberGrid O.E) (particlesOf O.E S s))
        (fun i j x y hd hn => (c2 ⟨_, mem, el, by show prepComp (O.probes k).component = _; rw [hm]; rfl⟩ i j x y hd hn).2.1) hX hY hA⟩
    · have em : mapOf (O.probes k).component = some fun m => m.mom.z := by rw [hm]; rfl
      exact ⟨_, seen_map (by rw [hm]; rfl) em el S P'', fun X Y hX hY hA => map_cells h gP em (V := Dump.meanZ (O.par s) (chamberGrid O.E) (particlesOf O.E S s))
        (fun i j x y hd hn => (c2 ⟨_, mem, el, by show prepComp (O.probes k).component = _; rw [hm]; rfl⟩ i j x y hd hn).2.2) hX hY hA⟩
  · obtain ⟨k', hl, hd', hc', hs'⟩ := hk'
    obtain ⟨pre, mid, post, ed⟩ := due_order hk hl hd hd'
    have em : mapOf (O.probes k).component = some Maps.St.temperature := by rw [hm]; rfl
    exact ⟨_, seen_map (by rw [hm]; rfl) em el S P'', fun X Y hX hY hA => map_cells h gP em (V := Dump.temperatureAt (O.par s) (chamberGrid O.E) (particlesOf O.E S s))
      (fun i j x y hd hn => c3 ⟨pre, mid, post, _, _, ed, by show Dump.lookup O.names (O.probes k').specie = _; rw [hs']; exact el,
        by show prepComp (O.probes k').component = _; rw [hc']; rfl, el, by show prepComp (O.probes k).component = _; rw [hm]; rfl⟩ i j x y hd hn) hX hY hA⟩

/-- **C111 (maps of the species), partial.**  In the same files, every frame of a density, energy or momentum probe shows at every cell
of its rectangle the density, energy or momentum of all particles of its species after `f * schedule + 1` steps, whatever the
order and the number of the probes, except in the first row and the first column of the domains behind a border between
domains; in an undivided chamber nothing is excepted.  A temperature probe does so if an energy probe of the same species stands
before it whose schedule divides its own.  Missing: the excepted cells and temperature probes without such an energy probe (C88,
C89, C95: false of the code), and the limits of `C111_fields_partial`. -/
theorem C111_maps_partial {O : OEnv} (h : O.Watched) (nd : O.names.Nodup) (hist : Nat → State) {F0 : Files} (h0 : F0.Start O) (N : Nat)
    (hN : N ≤ 2 ^ 31) (hh : ∀ n, n < N → Held O.E (hist (n + 1))) :
    ∃ F, record O hist F0 N = .ok (N * O.E.p.dt, F) ∧
      ∀ k s, k < O.count → O.names[s]? = some (O.probes k).specie → ∀ f, f < frames (O.probes k).schedule N → ∀ X Y : Nat,
        (O.probes k).rect.r0 ≤ X → X < (O.probes k).rect.r1 → (O.probes k).rect.z0 ≤ Y → Y < (O.probes k).rect.z1 → Away O.E X Y →
        (∀ m V, (m, V) ∈ mapNames → (O.probes k).component = m.toList →
          ((F.sets k).frame f).cell (X - (O.probes k).rect.r0) (Y - (O.probes k).rect.z0) =
            some (V (O.par s) (chamberGrid O.E) (particlesOf O.E (hist (f * (O.probes k).schedule + 1)) s) X Y)) ∧
        ((O.probes k).component = "temperature".toList → (∃ k', k' < k ∧ (O.probes k').schedule ∣ (O.probes k).schedule ∧
            (O.probes k').component = "energy".toList ∧ (O.probes k').specie = (O.probes k).specie) →
          ((F.sets k).frame f).cell (X - (O.probes k).rect.r0) (Y - (O.probes k).rect.z0) =
            some (Dump.temperatureAt (O.par s) (chamberGrid O.E) (particlesOf O.E (hist (f * (O.probes k).schedule + 1)) s) X Y)) := by
  obtain ⟨F, P, e, _, pr, st⟩ := record_ok h hist h0 N hN hh
  refine ⟨F, e, fun k s hk hn f hf X Y x0 x1 y0 y1 hA => ?_⟩
  have pk := h.probes k hk
  have hf' := (frames_iff pk.every.1).mp hf
  obtain ⟨_, b⟩ := st k hk
  have fr := (b f).1 hf'
  obtain ⟨Q, hQ, eQ⟩ := pr _ hf'
  obtain ⟨m1, m2⟩ := maps_seen h nd (hh _ hf') hQ eQ hk (show _ % _ = 0 from Nat.mul_mod_left _ _) hn
  have hX : X < O.E.p.nr := lt_of_lt_of_le x1 pk.rows.2
  have hY : Y < O.E.p.nz := lt_of_lt_of_le y1 pk.cols.2
  have fin : ∀ G, seenBy O (hist (f * (O.probes k).schedule + 1)) (P (f * (O.probes k).schedule)) (O.probes k) = some G →
      ((F.sets k).frame f).cell (X - (O.probes k).rect.r0) (Y - (O.probes k).rect.z0) = some (G X Y) := by
    intro G eG
    rw [eG] at fr
    have := fr.2 (X - (O.probes k).rect.r0) (Y - (O.probes k).rect.z0)
    rw [if_pos ⟨by omega, by omega⟩, Nat.add_sub_cancel' x0, Nat.add_sub_cancel' y0] at this
    exact this
  refine ⟨fun m V hV hm => ?_, fun hm hk' => ?_⟩
  · obtain ⟨G, g1, g2⟩ := m1 m V hV hm
    rw [fin G g1, g2 X Y hX hY hA]
  · obtain ⟨k', l, dv, c', s'⟩ := hk'
    obtain ⟨G, g1, g2⟩ := m2 hm ⟨k', l, show _ % _ = 0 from Nat.mod_eq_zero_of_dvd (Dvd.dvd.mul_left dv _), c', s'⟩
    rw [fin G g1, g2 X Y hX hY hA]

/-- **C111 (what is written stays).**  A frame that is complete after `N` steps is the same after any number of further steps,
so a run that is stopped early leaves a beginning of the file of the longer run. -/
theorem C111_kept {O : OEnv} (h : O.Watched) (hist : Nat → State) {F0 : Files} (h0 : F0.Start O) (N M : Nat) (hN : N + M ≤ 2 ^ 31)
    (hh : ∀ n, n < N + M → Held O.E (hist (n + 1))) :
    ∃ F F', record O hist F0 N = .ok (N * O.E.p.dt, F) ∧ record O hist F0 (N + M) = .ok ((N + M : Nat) * O.E.p.dt, F') ∧
      ∀ k, k < O.count → (F.sets k).rows ≤ (F'.sets k).rows ∧
        ∀ f, f < frames (O.probes k).schedule N → (F'.sets k).frame f = (F.sets k).frame f := by
  induction M with
  | zero =>
    obtain ⟨F, P, e, _⟩ := record_ok h hist h0 N (by omega) fun n hn => hh n (by omega)
    exact ⟨F, F, e, e, fun k hk => ⟨le_rfl, fun f hf => rfl⟩⟩
  | succ M ih =>
    obtain ⟨F, F1, e, e1, k1⟩ := ih (by omega) fun n hn => hh n (by omega)
    obtain ⟨F1', P1, e1', gm, _, st⟩ := record_ok h hist h0 (N + M) (by omega) fun n hn => hh n (by omega)
    obtain rfl : F1' = F1 := (Prod.mk.inj (Res.ok.inj (e1'.symm.trans e1))).2
    have dvd : ∀ k, k < O.count → Due O (N + M) k → (N + M) / (O.probes k).schedule * (O.probes k).schedule = N + M := by
      intro k hk hd
      exact Nat.div_mul_cancel (Nat.dvd_of_mod_eq_zero hd)
    obtain ⟨F', eo, _, _, s'⟩ := outputs_ok h (hh (N + M) (by omega)) (N + M) F1' (gm _) (fun k hk hd => by
      refine ((st k hk).2 _).2 ?_
      rw [dvd k hk hd]
      omega)
    refine ⟨F, F', e, ?_, fun k hk => ?_⟩
    · rw [← Nat.add_assoc, record, e1, Res.ok_bind]
      dsimp only
      rw [Out.stepNo_exact O.E.p.dt h.dt (N + M) (by omega), Res.ok_bind, eo, Res.ok_bind]
      congr 2
      push_cast
      ring
    · obtain ⟨a, b⟩ := k1 k hk
      obtain ⟨c, d⟩ := s' k hk
      by_cases hd : Due O (N + M) k
      · obtain ⟨d1, d2, _⟩ := d hd
        refine ⟨?_, fun f hf => ?_⟩
        · rw [d1]
          refine le_trans a ?_
          unfold Dataset.extend
          split
          · exact le_rfl
          · next q => show (F1'.sets k).rows ≤ (N + M) / (O.probes k).schedule + 1; omega
        · rw [d2 f ?_, b f hf]
          intro e
          have := (frames_iff (h.probes k hk).every.1).mp hf
          rw [e, dvd k hk hd] at this
          omega
      · rw [c hd]
        exact ⟨a, b⟩

theorem held {E : Env} {ids : List Nat} {S : State} (A : Alive E ids S) : Held E S := fun i j hi hj sp hs o ho => (A.place i j hi hj sp hs o ho).dom

/-- **C111 (a complete run in an undivided chamber).**  From any sane start, the run is determined, and for every end time the
main loop ends, the output never fails, and the file then holds for every field or current probe `⌊stop / dt⌋ / schedule + 1`
frames, frame `f` with the field after `f * schedule + 1` steps, and for every density, energy or momentum probe the same with
the map of its species. -/
theorem C111_single {O : OEnv} (h : O.Watched) (hc : Chamber O.E) (hk : Pusher.Relativistic O.E.kind) (hz : Scheme O.E.dist)
    (h1 : O.E.domR = 1) (h2 : O.E.domZ = 1) (hh : HalfCell O.E) (ni : O.names.Nodup) {ids : List Nat} (nd : ids.Nodup) {S : State}
    (A : Alive O.E ids S) {F0 : Files} (h0 : F0.Start O) :
    ∃ hist : Nat → State, (∀ n T, Run O.E S n T ↔ T = hist n) ∧ ∀ stop : ℝ, 0 ≤ stop → ⌊stop / O.E.p.dt⌋ + 1 ≤ 2 ^ 31 →
      ∃ u F, Out.MainLoop (Out.initTime 0 stop O.E.p.dt, 0) u ∧ (∀ u', Out.MainLoop (Out.initTime 0 stop O.E.p.dt, 0) u' → u' = u) ∧
        record O hist F0 u.2 = .ok (u.1.current, F) ∧
        ∀ k, k < O.count →
          (∀ n c, (n, c) ∈ fieldNames → (O.probes k).component = n.toList →
            ((F.sets k).rows : Int) = ⌊stop / O.E.p.dt⌋ / (O.probes k).schedule + 1 ∧
            ∀ f, f < (F.sets k).rows → ShowsFrame (O.probes k).rect ((F.sets k).frame f) fun X Y => (hist (f * (O.probes k).schedule + 1)).M 0 0 c X Y) ∧
          ∀ n V (s : Nat), (n, V) ∈ mapNames → (O.probes k).component = n.toList → O.names[s]? = some (O.probes k).specie →
            ((F.sets k).rows : Int) = ⌊stop / O.E.p.dt⌋ / (O.probes k).schedule + 1 ∧
            ∀ f, f < (F.sets k).rows → ShowsFrame (O.probes k).rect ((F.sets k).frame f)
              fun X Y => V (O.par s) (chamberGrid O.E) (particlesOf O.E (hist (f * (O.probes k).schedule + 1)) s) X Y := by
  choose hist run al _ using fun n => C97_single hc hk hz h1 h2 hh nd A n
  refine ⟨hist, run, fun stop s0 hs => ?_⟩
  obtain ⟨u, m1, m2, m3, m4⟩ := Out.C43_steps (0 : ℝ) stop O.E.p.dt h.dt
  have fl : 0 ≤ ⌊stop / O.E.p.dt⌋ := Int.floor_nonneg.mpr (div_nonneg s0 h.dt.le)
  have hu : u.2 ≤ 2 ^ 31 := by
    have : (u.2 : Int) ≤ 2 ^ 31 := by rw [m3]; omega
    exact_mod_cast this
  obtain ⟨F, P, e, _, pr, st⟩ := record_ok h hist h0 u.2 hu fun n _ => held (al _)
  refine ⟨u, F, m1, m2, by rw [m4]; exact e, fun k hk => ?_⟩
  have pk := h.probes k hk
  have ev := pk.every.1
  obtain ⟨a, b⟩ := st k hk
  obtain ⟨m, hm⟩ := Int.eq_ofNat_of_zero_le fl
  have um : u.2 = m + 1 := by omega
  have fr : frames (O.probes k).schedule u.2 = m / (O.probes k).schedule + 1 := by
    unfold frames
    rw [um, show m + 1 + (O.probes k).schedule - 1 = m + (O.probes k).schedule by omega, Nat.add_div_right _ (by omega)]
  have rows : (F.sets k).rows = frames (O.probes k).schedule u.2 := by rw [a, fr]; exact max_eq_right (Nat.le_add_left 1 _)
  have rw' : ((F.sets k).rows : Int) = ⌊stop / O.E.p.dt⌋ / (O.probes k).schedule + 1 := by
    rw [rows, fr, hm]
    push_cast
    rfl
  refine ⟨fun n c hn hp => ⟨rw', fun f hf => ?_⟩, fun n V s hn hp hs => ⟨rw', fun f hf => ?_⟩⟩
  · rw [rows] at hf
    have := (b f).1 ((frames_iff ev).mp hf)
    rw [seen_field hn hp] at this
    refine ⟨this.1, fun x y => ?_⟩
    rw [this.2 x y]
    split
    · next q =>
      have := pk.rows
      have := pk.cols
      congr 1
      unfold glue
      dsimp only
      rw [h1, h2, Nat.div_one, Nat.div_one, Int.toNat_natCast, Int.toNat_natCast, Nat.div_eq_of_lt (by omega), Nat.div_eq_of_lt (by omega),
        low_zero, low_zero]
      simp
    · rfl
  · rw [rows] at hf
    have hf' := (frames_iff ev).mp hf
    have fo := (b f).1 hf'
    obtain ⟨Q, hQ, eQ⟩ := pr _ hf'
    obtain ⟨G, g1, g2⟩ := (maps_seen h ni (held (al _)) hQ eQ hk (show _ % _ = 0 from Nat.mul_mod_left _ _) hs).1 n V hn hp
    rw [g1] at fo
    refine ⟨fo.1, fun x y => ?_⟩
    rw [fo.2 x y]
    split
    · next q =>
      have := pk.rows
      have := pk.cols
      congr 1
      exact g2 _ _ (by omega) (by omega) ⟨fun i a b => by omega, fun i a b => by omega⟩
    · rfl

theorem whole_watched {O : OEnv} (h : O.Watched) (hc : Chamber O.E) : O.whole.Watched where
  r0 := h.r0
  div := (whole_chamber hc).div
  smallR := h.smallR
  smallZ := h.smallZ
  dr := h.dr
  dz := h.dz
  dt := h.dt
  par := h.par
  probes := fun k hk => ⟨(h.probes k hk).known, (h.probes k hk).every, (h.probes k hk).rows, (h.probes k hk).cols,
    fun i a b => absurd (show i < 1 from b) (by omega)⟩

theorem same_glue {E : Env} (hc : Chamber E) {ids : List Nat} {S W : State} (Q : Same E ids S W) {X Y : Nat} (hX : X < E.p.nr) (hY : Y < E.p.nz)
    (c : Comp) : glue E.whole W.M c X Y = glue E S.M c X Y := by
  have hl : E.p.logical X Y := ⟨⟨by omega, by omega⟩, by omega, by omega⟩
  have w : glue E.whole W.M c X Y = W.M 0 0 c X Y := by
    obtain ⟨i, j, x, y, hcell, e1, e2, e3⟩ := glue_cell (whole_chamber hc).div (show E.whole.p.logical X Y from hl)
    obtain ⟨hi, hj, _⟩ := hcell
    obtain rfl : i = 0 := by have : i < 1 := hi; omega
    obtain rfl : j = 0 := by have : j < 1 := hj; omega
    rw [low_zero] at e1 e2
    rw [e3]
    congr 1
    · omega
    · omega
  rw [w]
  cases k : c.isSource
  · rw [window_glue hc.div (Q.fields c k) hl]
  · obtain ⟨i, j, x, y, hcell, e1, e2, e3⟩ := glue_cell hc.div hl
    rw [e3, Q.sources i j x y c k hcell, e1, e2]

theorem particles_tags {E : Env} {ids : List Nat} (nd : ids.Nodup) {S : State} (A : Alive E ids S) {s id : Nat} (hs : ids[s]? = some id) :
    particlesOf E S s = (tagsOf E S.D id).map fun t => vpOf (S.heap t) := by
  unfold particlesOf tagsOf
  rw [List.map_flatMap]
  show (idx2 0 E.domR 0 E.domZ).flatMap _ = (idx2 0 E.domR 0 E.domZ).flatMap _
  congr 1
  funext d
  rw [List.map_map]
  have rep := sp_rep (S.D d.1 d.2) (by rw [A.species]; exact nd)
  rw [A.species] at rep
  have : ((S.D d.1 d.2)[s]?).elim [] Sp.parts = SMB.parts S.D d.1 d.2 id := by
    rw [rep, List.getElem?_map, hs]
    rfl
  rw [this]
  rfl

theorem particles_perm {E : Env} {ids : List Nat} (nd : ids.Nodup) {S W : State} (A : Alive E ids S) (A1 : Alive E.whole ids W) (Q : Same E ids S W)
    (s : Nat) : (particlesOf E S s).Perm (particlesOf E.whole W s) := by
  cases hs : ids[s]? with
  | none =>
    have e : ∀ (E' : Env) (T : State), Alive E' ids T → particlesOf E' T s = [] := by
      intro E' T B
      unfold particlesOf
      rw [List.flatMap_eq_nil_iff]
      intro d _
      have : (T.D d.1 d.2)[s]? = none := by
        have := congrArg (fun l : List Nat => l[s]?) (B.species d.1 d.2)
        simp only [List.getElem?_map, hs, Option.map_eq_none_iff] at this
        exact this
      rw [this]
      rfl
    rw [e E S A, e E.whole W A1]
  | some id =>
    rw [particles_tags nd A hs, particles_tags nd A1 hs, Q.heap]
    exact (Q.lists id (List.mem_of_getElem? hs)).map _

theorem dens_perm {q : Maps.Par} {g : Geom ℝ} {a b : List Maps.VP} (h : a.Perm b) (x y : Int) : Maps.dens q g a x y = Maps.dens q g b x y :=
  (h.map _).sum_eq

theorem mean_perm {q : Maps.Par} {g : Geom ℝ} {a b : List Maps.VP} (h : a.Perm b) (f : Maps.VP → ℝ) (x y : Int) :
    Maps.mean q g a f x y = Maps.mean q g b f x y := by
  unfold Maps.mean
  rw [dens_perm h, (h.map _).sum_eq]

theorem map_perm {m : String} {V : Maps.Par → Geom ℝ → List Maps.VP → Int → Int → ℝ} (hV : (m, V) ∈ mapNames) {q : Maps.Par} {g : Geom ℝ}
    {a b : List Maps.VP} (h : a.Perm b) (x y : Int) : V q g a x y = V q g b x y := by
  unfold mapNames at hV
  simp only [List.mem_cons, List.not_mem_nil, or_false, Prod.mk.injEq] at hV
  rcases hV with ⟨rfl, rfl⟩ | ⟨rfl, rfl⟩ | ⟨rfl, rfl⟩ | ⟨rfl, rfl⟩ | ⟨rfl, rfl⟩
  · exact dens_perm h x y
  · unfold Dump.energyAt Dump.meanAbs
    rw [dens_perm h, mean_perm h]
  · exact mean_perm h _ x y
  · exact mean_perm h _ x y
  · exact mean_perm h _ x y

/-- **C111 (the division does not show in the file), partial.**  As long as the division into domains does not matter to the
physics (C98), the frames of the field and current probes of the divided and of the undivided run are the same, and the cells of
the density, energy and momentum probes away from the seams as well.  Missing: what C98 excepts, and the seams (C88, C95). -/
theorem C111_division_partial {O : OEnv} (h : O.Watched) (hc : Chamber O.E) (hk : Pusher.Relativistic O.E.kind)
    (hz : O.E.dist = ZigZag.currentDistribution) (ni : O.names.Nodup) {ids : List Nat} (nd : ids.Nodup) {S W : State} (A : Alive O.E ids S)
    (A1 : Alive O.E.whole ids W) (Q : Same O.E ids S W) {F0 F1 : Files} (h0 : F0.Start O) (h1 : F1.Start O.whole) (N : Nat) (hN : N ≤ 2 ^ 31)
    (B : ∀ k T, k < N → Run O.E S k T → NoBorder O.E T ∧ NoSeam O.E T ∧ ∀ T', Step O.E T T' → NoCut O.E T') :
    ∃ (hS hW : Nat → State) (F F' : Files), (∀ n, n ≤ N → ∀ T, Run O.E S n T ↔ T = hS n) ∧ (∀ n, n ≤ N → ∀ T, Run O.E.whole W n T ↔ T = hW n) ∧
      record O hS F0 N = .ok (N * O.E.p.dt, F) ∧ record O.whole hW F1 N = .ok (N * O.E.p.dt, F') ∧ ∀ k, k < O.count →
        (∀ n c, (n, c) ∈ fieldNames → (O.probes k).component = n.toList → (F.sets k).rows = (F'.sets k).rows ∧
          ∀ f, f < (F.sets k).rows → ∀ a b, ((F.sets k).frame f).cell a b = ((F'.sets k).frame f).cell a b) ∧
        ∀ n V (s : Nat), (n, V) ∈ mapNames → (O.probes k).component = n.toList → O.names[s]? = some (O.probes k).specie →
          ∀ f, f < frames (O.probes k).schedule N → ∀ X Y : Nat,
            (O.probes k).rect.r0 ≤ X → X < (O.probes k).rect.r1 → (O.probes k).rect.z0 ≤ Y → Y < (O.probes k).rect.z1 → Away O.E X Y →
            ((F.sets k).frame f).cell (X - (O.probes k).rect.r0) (Y - (O.probes k).rect.z0) =
              ((F'.sets k).frame f).cell (X - (O.probes k).rect.r0) (Y - (O.probes k).rect.z0) := by
  have ex : ∀ n, ∃ X : State × State, n ≤ N → (∀ T, Run O.E S n T ↔ T = X.1) ∧ (∀ T, Run O.E.whole W n T ↔ T = X.2) ∧ Alive O.E ids X.1 ∧
      Alive O.E.whole ids X.2 ∧ Same O.E ids X.1 X.2 := by
    intro n
    by_cases c : n ≤ N
    · obtain ⟨S', W', a⟩ := C98_run_partial hc hk hz nd A A1 Q n fun k T hk r => B k T (by omega) r
      exact ⟨(S', W'), fun _ => a⟩
    · exact ⟨(S, W), fun k => absurd k c⟩
  choose H hH using ex
  obtain ⟨F, e, fF⟩ := C111_fields_partial h (fun n => (H n).1) h0 N hN fun n hn => held (hH (n + 1) (by omega)).2.2.1
  obtain ⟨F2, e2, mF⟩ := C111_maps_partial h ni (fun n => (H n).1) h0 N hN fun n hn => held (hH (n + 1) (by omega)).2.2.1
  obtain rfl : F2 = F := (Prod.mk.inj (Res.ok.inj (e2.symm.trans e))).2
  have hw := whole_watched h hc
  obtain ⟨F', e', fF'⟩ := C111_fields_partial hw (fun n => (H n).2) h1 N hN fun n hn => held (hH (n + 1) (by omega)).2.2.2.1
  obtain ⟨F2', e2', mF'⟩ := C111_maps_partial hw ni (fun n => (H n).2) h1 N hN fun n hn => held (hH (n + 1) (by omega)).2.2.2.1
  obtain rfl : F2' = F' := (Prod.mk.inj (Res.ok.inj (e2'.symm.trans e'))).2
  refine ⟨fun n => (H n).1, fun n => (H n).2, F2, F2', fun n hn => (hH n hn).1, fun n hn => (hH n hn).2.1, e, e', fun k hk =>
    ⟨fun n c hn hp => ?_, fun n V s hn hp hs f hf X Y x0 x1 y0 y1 hA => ?_⟩⟩
  · have pk := h.probes k hk
    obtain ⟨a1, a2, a3⟩ := fF k n c hk hn hp
    obtain ⟨b1, b2, b3⟩ := fF' k n c hk hn hp
    refine ⟨a1.trans b1.symm, fun f hf x y => ?_⟩
    by_cases cf : f < frames (O.probes k).schedule N
    · rw [(a2 f cf).2 x y]
      refine Eq.trans ?_ ((b2 f cf).2 x y).symm
      by_cases q : x < (O.probes k).rect.r1 - (O.probes k).rect.r0 ∧ y < (O.probes k).rect.z1 - (O.probes k).rect.z0
      · have := pk.rows
        have := pk.cols
        have lt := (frames_iff pk.every.1).mp cf
        rw [if_pos q]
        refine Eq.trans ?_ (if_pos q).symm
        exact congrArg some (same_glue hc (hH _ (by omega)).2.2.2.2 (by omega) (by omega) c).symm
      · rw [if_neg q]
        exact (if_neg q).symm
    · rw [a3 f (by omega) x y, b3 f (by show frames (O.probes k).schedule N ≤ f; omega) x y]
  · have lt := (frames_iff (h.probes k hk).every.1).mp hf
    obtain ⟨_, _, q1, q2, q3⟩ := hH (f * (O.probes k).schedule + 1) (by omega)
    rw [(mF k s hk hs f hf X Y x0 x1 y0 y1 hA).1 n V hn hp]
    refine Eq.trans ?_ ((mF' k s hk hs f hf X Y x0 x1 y0 y1 ⟨fun i a b => absurd (show i < 1 from b) (by omega),
      fun i a b => absurd (show i < 1 from b) (by omega)⟩).1 n V hn hp).symm
    exact congrArg some (map_perm hn (particles_perm nd q1 q2 q3 s) X Y)

/-! ### The hypotheses can be met -/

/-- The chamber of `Props/Pic` with three probes: a field on a part of the area every second step, the density and the
temperature of a species everywhere in every step. -/
noncomputable def exOut (R Z : Nat) (q : ℝ) : OEnv where
  E := exEnv R Z q
  names := ["electrons".toList]
  par := fun _ => ⟨3, 1, 1/2, 1, 1⟩
  count := 3
  probes := fun k => if k = 0 then ⟨"E/r".toList, [], ⟨0, 0, 3, 4⟩, 2⟩ else if k = 1 then ⟨"density".toList, "electrons".toList, ⟨0, 0, 4, 4⟩, 1⟩
    else ⟨"J/z".toList, [], ⟨1, 1, 3, 3⟩, 3⟩

theorem exOut_watched {R Z : Nat} (hd : Divided (exEnv R Z 0).p R Z) (hR : R ≤ 2) (q : ℝ) : (exOut R Z q).Watched where
  r0 := rfl
  div := ⟨hd.r1, hd.z1, hd.r2, hd.z2, hd.r3, hd.z3, hd.r4, hd.z4, hd.shape⟩
  smallR := by show 4 < 2 ^ 15; norm_num
  smallZ := by show 4 < 2 ^ 15; norm_num
  dr := by norm_num [exOut, exEnv]
  dz := by norm_num [exOut, exEnv]
  dt := by norm_num [exOut, exEnv]
  par := fun _ => by constructor <;> norm_num [exOut]
  probes := by
    intro k hk
    have lw : ∀ i, 0 < i → i < R → low 4 R i = 2 := by
      intro i a b
      obtain rfl : i = 1 := by omega
      obtain rfl : R = 2 := by omega
      rfl
    rcases (show k = 0 ∨ k = 1 ∨ k = 2 by have : k < 3 := hk; omega) with rfl | rfl | rfl
    · refine ⟨by show "E/r".toList ∈ Probe.fieldBased ++ Probe.specieBased; decide, by show 1 ≤ 2 ∧ 2 < 65536; decide,
        by show 0 < 3 ∧ 3 ≤ 4; decide, by show 0 < 4 ∧ 4 ≤ 4; decide, fun i a b => ?_⟩
      show low 4 R i ≠ 0 ∧ low 4 R i ≠ 3
      rw [lw i a b]
      decide
    · refine ⟨by show "density".toList ∈ Probe.fieldBased ++ Probe.specieBased; decide, by show 1 ≤ 1 ∧ 1 < 65536; decide,
        by show 0 < 4 ∧ 4 ≤ 4; decide, by show 0 < 4 ∧ 4 ≤ 4; decide, fun i a b => ?_⟩
      show low 4 R i ≠ 0 ∧ low 4 R i ≠ 4
      rw [lw i a b]
      decide
    · refine ⟨by show "J/z".toList ∈ Probe.fieldBased ++ Probe.specieBased; decide, by show 1 ≤ 3 ∧ 3 < 65536; decide,
        by show 1 < 3 ∧ 3 ≤ 4; decide, by show 1 < 3 ∧ 3 ≤ 4; decide, fun i a b => ?_⟩
      show low 4 R i ≠ 1 ∧ low 4 R i ≠ 3
      rw [lw i a b]
      decide

/-- Files to start from exist for every simulation. -/
theorem start_exists {O : OEnv} (h : O.Watched) : ∃ F, Files.Start O F := by
  let g : Nat → Nat → Grid ℝ := fun i j => ⟨2, low O.E.p.nr O.E.domR (i + 1) - low O.E.p.nr O.E.domR i,
    low O.E.p.nz O.E.domZ (j + 1) - low O.E.p.nz O.E.domZ j, fun _ _ => 0⟩
  refine ⟨⟨fun _ i j => ⟨g i j, g i j, ⟨g i j, g i j, g i j⟩, ⟨g i j, g i j, g i j⟩, g i j, g i j⟩, fun k => Dataset.create (O.probes k).rect⟩,
    fun k => rfl, fun S s i j hi hj => ?_⟩
  have l1 := low_le (n := O.E.p.nr) h.div.r1 hi
  have l2 := low_le (n := O.E.p.nz) h.div.z1 hj
  have s1 := h.smallR
  have s2 := h.smallZ
  have k : ((worldOf O S).geo i j).MapOf (g i j) := by
    refine ⟨?_, rfl, rfl, by show 1 ≤ 2; omega⟩
    constructor
    · show low O.E.p.nr O.E.domR (i + 1) - low O.E.p.nr O.E.domR i + 2 * 2 < _
      omega
    · show low O.E.p.nz O.E.domZ (j + 1) - low O.E.p.nz O.E.domZ j + 2 * 2 < _
      omega
  exact ⟨⟨k, k, ⟨k, k, k⟩, ⟨k, k, k⟩, k, k⟩, rfl, rfl, rfl, rfl, rfl, rfl⟩

/-- The hypotheses of `C111_single` (and with it of the first three theorems): a charged particle, two fields and a density. -/
example : ∃ F0 : Files, (exOut 1 1 1).Watched ∧ Chamber (exOut 1 1 1).E ∧ HalfCell (exOut 1 1 1).E ∧ (exOut 1 1 1).names.Nodup ∧
    Alive (exOut 1 1 1).E [7] (exState 0 (exPart (3/2) (5/2) (1/2) (1/3) 1 2)) ∧ F0.Start (exOut 1 1 1) ∧ Held (exOut 1 1 1).E (exState 0 (exPart (3/2) (5/2) (1/2) (1/3) 1 2)) := by
  have h := exEnv_chamber ex_div1 1
  have w := exOut_watched ex_div1 (by omega) 1
  obtain ⟨F0, h0⟩ := start_exists w
  have A : Alive (exEnv 1 1 1) [7] (exState 0 (exPart (3/2) (5/2) (1/2) (1/3) 1 2)) := by
    refine exState_alive ⟨rfl, ?_, ?_, ?_, ?_, ?_, ?_, ?_, ?_⟩ (by rfl)
    · rw [geom_eq h]
      constructor <;> norm_num [exEnv, exPart, low, hgt]
    all_goals norm_num [exEnv, exPart, vel, Vec3.length2, Int.floor_eq_iff]
  exact ⟨F0, w, h, by unfold HalfCell exOut exEnv; norm_num, List.nodup_singleton _, A, h0, held A⟩

/-- A complete run of the example: 101 steps, 51 frames of the radial field. -/
example : ∃ (hist : Nat → State) (F0 F : Files), (∀ n T, Run (exEnv 1 1 1) (exState 0 (exPart (3/2) (5/2) (1/2) (1/3) 1 2)) n T ↔ T = hist n) ∧
    record (exOut 1 1 1) hist F0 101 = .ok (101/2, F) ∧ (F.sets 0).rows = 51 ∧
    ((F.sets 0).frame 50).cell 2 3 = some ((hist 101).M 0 0 .er 2 3) := by
  have h := exEnv_chamber ex_div1 1
  have w := exOut_watched ex_div1 (by omega) 1
  obtain ⟨F0, h0⟩ := start_exists w
  have A : Alive (exEnv 1 1 1) [7] (exState 0 (exPart (3/2) (5/2) (1/2) (1/3) 1 2)) := by
    refine exState_alive ⟨rfl, ?_, ?_, ?_, ?_, ?_, ?_, ?_, ?_⟩ (by rfl)
    · rw [geom_eq h]
      constructor <;> norm_num [exEnv, exPart, low, hgt]
    all_goals norm_num [exEnv, exPart, vel, Vec3.length2, Int.floor_eq_iff]
  obtain ⟨hist, run, end_⟩ := C111_single w h (Or.inl rfl) (Or.inr rfl) rfl rfl (by unfold HalfCell exOut exEnv; norm_num) (List.nodup_singleton _)
    (by simp) A h0
  have dt : (exOut 1 1 1).E.p.dt = 1/2 := rfl
  have fl : ⌊(50 : ℝ) / (exOut 1 1 1).E.p.dt⌋ = 100 := by rw [dt, Int.floor_eq_iff]; norm_num
  obtain ⟨u, F, m1, m2, e, fr⟩ := end_ 50 (by norm_num) (by rw [fl]; norm_num)
  obtain ⟨u', k1, k2, k3, k4⟩ := Out.C43_steps (0 : ℝ) 50 (exOut 1 1 1).E.p.dt w.dt
  obtain rfl := m2 u' k1
  rw [fl] at k3
  have u2 : u'.2 = 101 := by omega
  obtain ⟨a, b⟩ := (fr 0 (by show 0 < 3; omega)).1 "E/r" .er (by simp [fieldNames]) rfl
  have sch : ((exOut 1 1 1).probes 0).schedule = 2 := rfl
  rw [fl, sch] at a
  have rows : (F.sets 0).rows = 51 := by
    have : ((F.sets 0).rows : Int) = 51 := by rw [a]; norm_num
    exact_mod_cast this
  refine ⟨hist, F0, F, run, ?_, rows, ?_⟩
  · rw [k4, u2, dt] at e
    rw [e]
    norm_num
  · rw [(b 50 (by omega)).2 2 3]
    rfl

/-- The hypotheses of `C111_division_partial`: a charged particle that moves in two by two domains. -/
example : ∃ F0 F1 : Files, (exOut 2 2 1).Watched ∧ Chamber (exOut 2 2 1).E ∧ F0.Start (exOut 2 2 1) ∧ F1.Start (exOut 2 2 1).whole ∧
    Away (exOut 2 2 1).E 1 3 := by
  have w := exOut_watched ex_div2 (by omega) 1
  obtain ⟨F0, h0⟩ := start_exists w
  obtain ⟨F1, h1⟩ := start_exists (whole_watched w (exEnv_chamber ex_div2 1))
  refine ⟨F0, F1, w, exEnv_chamber ex_div2 1, h0, h1, fun i a b => ?_, fun i a b => ?_⟩
  · obtain rfl : i = 1 := by have : i < 2 := b; omega
    show 1 ≠ 2
    omega
  · obtain rfl : i = 1 := by have : i < 2 := b; omega
    show 3 ≠ 2
    omega

end Pic
end Pico
