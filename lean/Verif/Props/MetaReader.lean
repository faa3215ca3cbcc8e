import Verif.Spec.MetaReader
import Verif.Props.Config

/-!
# C116: the analysis library shows the run that was made
-/

set_option linter.unusedSimpArgs false
set_option linter.unusedSectionVars false

namespace Pico
namespace MetaReader

open Config

variable {K : Type}

theorem idx_at (v : Json K) (k : String) : idx v k = v.at [k] := by
  cases v with
  | obj l => rw [at_one]; rfl
  | _ => rfl

theorem idxs_at (v : Json K) (p : List String) : idxs v p = v.at p := by
  induction p generalizing v with
  | nil => rw [at_nil]; rfl
  | cons k p ih =>
    unfold idxs
    rw [idx_at, at_two v k p]
    congr 1
    funext w
    exact ih w

theorem collect_iff {α β : Type _} {f : α → Option β} {l : List α} {m : List β} :
    collect f l = some m ↔ List.Forall₂ (fun a b => f a = some b) l m := by
  induction l generalizing m with
  | nil => cases m <;> simp [collect]
  | cons a l ih =>
    simp only [collect, Option.bind_eq_some_iff]
    constructor
    · rintro ⟨b, hb, bs, hbs, e⟩
      cases e
      exact .cons hb (ih.1 hbs)
    · intro h
      cases h with
      | cons hb hbs => exact ⟨_, hb, _, ih.2 hbs, rfl⟩

theorem collect_some {α β : Type _} {f : α → Option β} {l : List α} (h : ∀ a ∈ l, ∃ b, f a = some b) : ∃ m, collect f l = some m := by
  induction l with
  | nil => exact ⟨[], rfl⟩
  | cons a l ih =>
    obtain ⟨b, hb⟩ := h a (by simp)
    obtain ⟨m, hm⟩ := ih fun x hx => h x (by simp [hx])
    exact ⟨b :: m, by simp only [collect, hb, hm, Option.bind_some]⟩

theorem collect_all {α β : Type _} {f : α → Option β} {l : List α} {m : List β} (h : collect f l = some m) : ∀ a ∈ l, ∃ b, f a = some b := by
  rw [collect_iff] at h
  induction h with
  | nil => simp
  | cons hab _ ih =>
    intro a ha
    rcases List.mem_cons.1 ha with rfl | ha
    · exact ⟨_, hab⟩
    · exact ih a ha

/-- A list of entries is shown if each is. -/
theorem collect_shows {α β γ : Type _} {f : α → Option β} {R : α → γ → Prop} {S : γ → β → Prop}
    (h : ∀ a c, R a c → ∃ b, f a = some b ∧ S c b) {l : List α} {cs : List γ} (hl : List.Forall₂ R l cs) :
    ∃ m, collect f l = some m ∧ List.Forall₂ S cs m := by
  induction hl with
  | nil => exact ⟨[], rfl, .nil⟩
  | cons hac _ ih =>
    obtain ⟨b, hb, hs⟩ := h _ _ hac
    obtain ⟨m, hm, hms⟩ := ih
    exact ⟨b :: m, by simp only [collect, hb, hm, Option.bind_some], .cons hs hms⟩

section
variable [Field K] [LinearOrder K] [IsStrictOrderedRing K] [FloorRing K]

theorem specie_shows (v : Json K) (s : Species.Specie K) (h : SpecieSays v s) : ∃ t, specie v = some t ∧ ShowsSpecie s t := by
  obtain ⟨n, ⟨xm, hm, cm, -⟩, em⟩ := h.mass
  obtain ⟨xc, hc, cc, -⟩ := h.charge
  refine ⟨?w, ?h1, ?h2⟩
  case h1 =>
    unfold specie
    simp only [idx_at, h.name, h.left, h.temperature, hm, hc, Option.bind_some]
    rfl
  case h2 => exact ⟨rfl, rfl, by rw [h.right], rfl, ⟨xc, rfl, cc⟩, ⟨n, ⟨xm, rfl, cm⟩, em⟩⟩

theorem beam_shows (v : Json K) (p : BeamData K) (h : BeamSays v p) : ∃ t, beam v = some t ∧ ShowsBeam p t := by
  obtain ⟨nm, hn, en⟩ := h.name
  obtain ⟨n, ⟨xm, hm, cm, -⟩, em⟩ := h.mass
  obtain ⟨xc, hc, cc, -⟩ := h.charge
  obtain ⟨xb, hb, cb, -⟩ := h.bunches
  refine ⟨?w, ?h1, ?h2⟩
  case h1 =>
    unfold beam
    simp only [idx_at, idxs_at, hn, h.velocity, hc, hm, h.start, h.density, hb, h.length, h.radius, h.distance, Option.bind_some]
    rfl
  · exact ⟨⟨nm, rfl, en⟩, rfl, ⟨xc, rfl, cc⟩, ⟨n, ⟨xm, rfl, cm⟩, em⟩, rfl, rfl, ⟨xb, rfl, cb⟩, rfl, rfl, rfl⟩

theorem probe_shows (nr nz : Nat) (v : Json K) (p : ProbeData) (h : ProbeSays nr nz v p) : ∃ t, probe v = some t ∧ ShowsProbe p t := by
  obtain ⟨a, ha, ca, -⟩ := h.r0
  obtain ⟨b, hb, cb, -⟩ := h.z0
  obtain ⟨c, hc, cc, -⟩ := h.r1
  obtain ⟨d, hd, cd, -⟩ := h.z1
  obtain ⟨n, ⟨x, hx, cx, -⟩, en⟩ := h.schedule
  refine ⟨?w, ?h1, ?h2⟩
  case h1 =>
    unfold probe
    simp only [idx_at, idxs_at, h.shape, h.component, ha, hb, hc, hd, hx, Option.bind_some, if_pos]
    rfl
  case h2 =>
    refine ⟨rfl, rfl, ?_, ⟨_, _, _, _, rfl, ⟨a, rfl, ca⟩, ⟨b, rfl, cb⟩, ⟨c, rfl, cc⟩, ⟨d, rfl, cd⟩⟩, ⟨n, ⟨x, rfl, cx⟩, en⟩⟩
    rcases h.specie with f | f
    · exact .inl (by rw [f]; rfl)
    · exact .inr f.2

/-- What the reader makes of a complete stored configuration. -/
theorem meta_open {b : Build} {o : List (String × Json K)} {c : Conf K} (hs : Says b (.obj o) c) (hc : Complete (.obj o)) (path : List Char) :
    ∃ m, metaRead (.obj (put o "base_path" (.str path))) = some m ∧ Shows c m := by
  obtain ⟨xr, hgr, cgr, -⟩ := hs.gridR.1
  obtain ⟨xz, hgz, cgz, -⟩ := hs.gridZ.1
  obtain ⟨⟨v1, hv1⟩, v2, hv2⟩ := hc.domains
  obtain ⟨pml, hpml⟩ := collect_some hc.layers
  obtain ⟨plot, hplot⟩ := collect_some hc.plot
  obtain ⟨l, hl, fl⟩ := hs.species
  obtain ⟨bl, hbl, fbl⟩ := hs.beams
  obtain ⟨pl, hpl, fpl⟩ := hs.probes
  obtain ⟨xl, hxl, cxl, -⟩ := hs.level
  obtain ⟨ms, hms, sms⟩ := collect_shows specie_shows fl
  obtain ⟨mb, hmb, smb⟩ := collect_shows beam_shows fbl
  obtain ⟨mp, hmp, smp⟩ := collect_shows (probe_shows _ _) fpl
  have hb : (Json.obj (put o "base_path" (.str path))).at ["base_path"] = some (.str path) := by rw [at_one, look_put]
  refine ⟨?w, ?h1, ?h2⟩
  case h1 =>
    unfold metaRead
    simp only [idx_at, idxs_at, at_put, ne_eq, String.reduceEq, not_false_eq_true, hs.sizeR.1, hs.sizeZ.1, hgr, hgz, hv1, hv2, hpml, hs.begins,
      hs.stops, hs.step, hl, hbl, items, hms, hmb, hb, hs.root, hs.compress, hxl, hpl, hmp, hplot, Option.bind_some]
    rfl
  case h2 => exact ⟨rfl, rfl, ⟨xr, rfl, cgr⟩, ⟨xz, rfl, cgz⟩, rfl, rfl, rfl, sms, smb, rfl, rfl, ⟨xl, rfl, cxl⟩, smp⟩

omit [LinearOrder K] [IsStrictOrderedRing K] [FloorRing K] in
/-- Without one of these entries it raises. -/
theorem meta_complete {o : List (String × Json K)} {path : List Char} {m : Meta K}
    (h : metaRead (.obj (put o "base_path" (.str path))) = some m) : Complete (.obj o) := by
  unfold metaRead at h
  obtain ⟨sr, -, h⟩ := Option.bind_eq_some_iff.1 h
  obtain ⟨sz, -, h⟩ := Option.bind_eq_some_iff.1 h
  obtain ⟨gr, -, h⟩ := Option.bind_eq_some_iff.1 h
  obtain ⟨gz, -, h⟩ := Option.bind_eq_some_iff.1 h
  obtain ⟨dr, h1, h⟩ := Option.bind_eq_some_iff.1 h
  obtain ⟨dz, h2, h⟩ := Option.bind_eq_some_iff.1 h
  obtain ⟨pml, h3, h⟩ := Option.bind_eq_some_iff.1 h
  obtain ⟨t0, -, h⟩ := Option.bind_eq_some_iff.1 h
  obtain ⟨t1, -, h⟩ := Option.bind_eq_some_iff.1 h
  obtain ⟨dt, -, h⟩ := Option.bind_eq_some_iff.1 h
  obtain ⟨ps, -, h⟩ := Option.bind_eq_some_iff.1 h
  obtain ⟨l, -, h⟩ := Option.bind_eq_some_iff.1 h
  obtain ⟨species, -, h⟩ := Option.bind_eq_some_iff.1 h
  obtain ⟨bs, -, h⟩ := Option.bind_eq_some_iff.1 h
  obtain ⟨k, -, h⟩ := Option.bind_eq_some_iff.1 h
  obtain ⟨beams, -, h⟩ := Option.bind_eq_some_iff.1 h
  obtain ⟨base, -, h⟩ := Option.bind_eq_some_iff.1 h
  obtain ⟨root, -, h⟩ := Option.bind_eq_some_iff.1 h
  refine ⟨⟨⟨dr, ?_⟩, dz, ?_⟩, ?_, ?_⟩
  · rw [idxs_at, at_put _ _ _ _ _ (by decide)] at h1; exact h1
  · rw [idxs_at, at_put _ _ _ _ _ (by decide)] at h2; exact h2
  · intro q hq
    obtain ⟨v, hv⟩ := collect_all h3 q hq
    rw [idxs_at, at_put _ _ _ _ _ (by decide)] at hv
    exact ⟨v, hv⟩
  split at h
  · obtain ⟨use, -, h⟩ := Option.bind_eq_some_iff.1 h
    obtain ⟨level, -, h⟩ := Option.bind_eq_some_iff.1 h
    obtain ⟨pr, -, h⟩ := Option.bind_eq_some_iff.1 h
    obtain ⟨k', -, h⟩ := Option.bind_eq_some_iff.1 h
    obtain ⟨probes, -, h⟩ := Option.bind_eq_some_iff.1 h
    obtain ⟨plot, h4, h⟩ := Option.bind_eq_some_iff.1 h
    intro q hq
    obtain ⟨v, hv⟩ := collect_all h4 q hq
    rw [idxs_at, at_put _ _ _ _ _ (by decide)] at hv
    exact ⟨v, hv⟩
  · cases h

theorem complete_kept (b : Build) (j : Json K) : Complete (kept b j) ↔ Complete j := by
  constructor
  · rintro ⟨h1, h2, h3⟩
    simp only [kept_at, kept_data_at, ne_eq, String.reduceEq, not_false_eq_true] at h1 h2 h3
    exact ⟨h1, h2, h3⟩
  · rintro ⟨h1, h2, h3⟩
    refine ⟨?_, ?_, ?_⟩
    all_goals simpa only [kept_at, kept_data_at, ne_eq, String.reduceEq, not_false_eq_true]

omit [LinearOrder K] [IsStrictOrderedRing K] [FloorRing K] in
theorem open_file (b : Build) (j : Json K) (sp : Pic.Spatial) (sv : Pic.Speedy) (pk : Pusher.Kind) (dp : Deposition) (s path : List Char)
    (o : List (String × Json K)) (e : kept b j = .obj o) :
    openFile (attributes b (kept b j) sp sv pk dp s) path = metaRead (.obj (put o "base_path" (.str path))) := by
  unfold openFile attributes
  rw [e]
  simp

section
variable (check : Conf K → Res Unit) (b : Build) (sp : Pic.Spatial) (sv : Pic.Speedy) (pk : Pusher.Kind) (dp : Deposition)
  (h1 : b.spatial = some sp) (h2 : b.speedy = some sv) (h3 : b.pusher = some pk) (h4 : b.deposition = some dp) (h5 : b.yee = true)
  (j : Json K) (c : Conf K) (a : List (String × Attr K)) (hr : start check b j = .ok (c, a)) (path : List Char)
include h1 h2 h3 h4 h5 hr

/-- **C116** (partial: the file has the entries the reader wants).  The file of every run can be opened, and what the reader shows is what the program
worked with, for numbers the program cuts up to their fractions. -/
theorem C116_shows_partial (hc : Complete j) : ∃ m, openFile a path = some m ∧ Shows c m := by
  obtain ⟨hs, -, -, s, -, rfl⟩ := (C115_start check b sp sv pk dp h1 h2 h3 h4 h5 j c a).1 hr
  have hs' : Says b (kept b j) c := (C115_read _ _ _).1 ((C115_again b b j c).2 ((C115_read _ _ _).2 hs))
  obtain ⟨o, v, e, -, -⟩ := at_cons hs'.log
  rw [open_file b j sp sv pk dp s path o e]
  rw [e] at hs'
  exact meta_open hs' (e ▸ (complete_kept b j).2 hc) path

/-- **C116**, refuted: the other files cannot be opened. -/
theorem C116_open_fails (hc : ¬ Complete j) : openFile a path = none := by
  obtain ⟨hs, -, -, s, -, rfl⟩ := (C115_start check b sp sv pk dp h1 h2 h3 h4 h5 j c a).1 hr
  have hs' : Says b (kept b j) c := (C115_read _ _ _).1 ((C115_again b b j c).2 ((C115_read _ _ _).2 hs))
  obtain ⟨o, v, e, -, -⟩ := at_cons hs'.log
  rw [open_file b j sp sv pk dp s path o e]
  cases hm : metaRead (Json.obj (put o "base_path" (.str path))) with
  | none => rfl
  | some m => exact absurd ((complete_kept b j).1 (e ▸ meta_complete hm)) hc

/-- **C116**, refuted: for instance those of runs whose configuration has no values for plotting, which the program does not know. -/
theorem C116_plot_fails (hp : j.at ["data", "plot"] = none) : openFile a path = none := by
  refine C116_open_fails check b sp sv pk dp h1 h2 h3 h4 h5 j c a hr path ?_
  intro hc
  obtain ⟨v, hv⟩ := hc.plot ["subplot", "cmap"] (by decide)
  rw [at_two] at hv hp
  cases e : j.at ["data"] with
  | none => simp [e] at hv
  | some d =>
    rw [e, Option.bind_some] at hv hp
    rw [at_two, hp] at hv
    simp at hv

/-- **C116**, refuted: and those of programs built without absorbing layers, if the configuration has none. -/
theorem C116_layers_fails (hp : j.at ["geometry", "pml"] = none) : openFile a path = none := by
  refine C116_open_fails check b sp sv pk dp h1 h2 h3 h4 h5 j c a hr path ?_
  intro hc
  obtain ⟨v, hv⟩ := hc.layers "left_wall" (by decide)
  rw [at_two] at hv hp
  cases e : j.at ["geometry"] with
  | none => simp [e] at hv
  | some d =>
    rw [e, Option.bind_some] at hv hp
    rw [at_two, hp] at hv
    simp at hv

end

omit [LinearOrder K] [IsStrictOrderedRing K] [FloorRing K] in
theorem species_amount {v : Json K} {t : MSpecie K} (h : specie v = some t) : t.amount = 1000000 := by
  unfold specie at h
  simp only [Option.bind_eq_some_iff] at h
  obtain ⟨_, -, _, -, _, -, _, -, _, -, e⟩ := h
  cases e
  rfl

omit [LinearOrder K] [IsStrictOrderedRing K] [FloorRing K] in
/-- **C116**, refuted: the reader shows a million macroparticles of each species, whatever the run had. -/
theorem C116_amount_fails (a : List (String × Attr K)) (path : List Char) (m : Meta K) (h : openFile a path = some m) :
    ∀ t ∈ m.species, t.amount = 1000000 := by
  have key : ∀ v, metaRead v = some m → ∀ t ∈ m.species, t.amount = 1000000 := by
    intro v hv
    unfold metaRead at hv
    obtain ⟨sr, -, hv⟩ := Option.bind_eq_some_iff.1 hv
    obtain ⟨sz, -, hv⟩ := Option.bind_eq_some_iff.1 hv
    obtain ⟨gr, -, hv⟩ := Option.bind_eq_some_iff.1 hv
    obtain ⟨gz, -, hv⟩ := Option.bind_eq_some_iff.1 hv
    obtain ⟨dr, -, hv⟩ := Option.bind_eq_some_iff.1 hv
    obtain ⟨dz, -, hv⟩ := Option.bind_eq_some_iff.1 hv
    obtain ⟨pml, -, hv⟩ := Option.bind_eq_some_iff.1 hv
    obtain ⟨t0, -, hv⟩ := Option.bind_eq_some_iff.1 hv
    obtain ⟨t1, -, hv⟩ := Option.bind_eq_some_iff.1 hv
    obtain ⟨dt, -, hv⟩ := Option.bind_eq_some_iff.1 hv
    obtain ⟨ps, -, hv⟩ := Option.bind_eq_some_iff.1 hv
    obtain ⟨l, -, hv⟩ := Option.bind_eq_some_iff.1 hv
    obtain ⟨species, hsp, hv⟩ := Option.bind_eq_some_iff.1 hv
    obtain ⟨bs, -, hv⟩ := Option.bind_eq_some_iff.1 hv
    obtain ⟨k, -, hv⟩ := Option.bind_eq_some_iff.1 hv
    obtain ⟨beams, -, hv⟩ := Option.bind_eq_some_iff.1 hv
    obtain ⟨base, -, hv⟩ := Option.bind_eq_some_iff.1 hv
    obtain ⟨root, -, hv⟩ := Option.bind_eq_some_iff.1 hv
    split at hv
    · obtain ⟨use, -, hv⟩ := Option.bind_eq_some_iff.1 hv
      obtain ⟨level, -, hv⟩ := Option.bind_eq_some_iff.1 hv
      obtain ⟨pr, -, hv⟩ := Option.bind_eq_some_iff.1 hv
      obtain ⟨k', -, hv⟩ := Option.bind_eq_some_iff.1 hv
      obtain ⟨probes, -, hv⟩ := Option.bind_eq_some_iff.1 hv
      obtain ⟨plot, -, hv⟩ := Option.bind_eq_some_iff.1 hv
      cases hv
      rw [collect_iff] at hsp
      intro t ht
      dsimp only at ht
      obtain ⟨i, hi, e⟩ := List.getElem_of_mem ht
      have := hsp.get (by rw [hsp.length_eq]; exact hi) hi
      simp only [List.get_eq_getElem] at this
      rw [e] at this
      exact species_amount this
    · cases hv
  unfold openFile at h
  split at h
  · exact key _ h
  · cases h

omit [IsStrictOrderedRing K] [FloorRing K] in
/-- **C116**, refuted: a beam is shown under the name of the file; the program (and so its probes) calls it differently.  If a species has that
name, both are shown under it. -/
theorem C116_names_fails (c : Conf K) (m : Meta K) (h : Shows c m) (i k : Nat) (s : Species.Specie K) (p : BeamData K)
    (hi : c.species[i]? = some s) (hk : c.beams[k]? = some p) (e : p.name = ['b', 'e', 'a', 'm', '_'] ++ s.name) :
    p.name ≠ s.name ∧ ∃ t u, m.species[i]? = some t ∧ m.beams[k]? = some u ∧ t.name = u.name := by
  refine ⟨?_, ?_⟩
  · rw [e]
    intro e'
    have := congrArg List.length e'
    simp at this
    omega
  · obtain ⟨hi', rfl⟩ := List.getElem?_eq_some_iff.1 hi
    obtain ⟨hk', rfl⟩ := List.getElem?_eq_some_iff.1 hk
    have hi2 : i < m.species.length := by rw [← h.species.length_eq]; exact hi'
    have hk2 : k < m.beams.length := by rw [← h.beams.length_eq]; exact hk'
    have a := h.species.get hi' hi2
    have b := h.beams.get hk' hk2
    refine ⟨_, _, List.getElem?_eq_getElem hi2, List.getElem?_eq_getElem hk2, ?_⟩
    obtain ⟨n, en, en'⟩ := b.name
    simp only [List.get_eq_getElem] at en en' a
    rw [a.name, en]
    congr 1
    rw [e] at en'
    exact List.append_cancel_left en'

/-! ### Numbers of rows, columns and frames -/

theorem round_int (n : Int) : pyRound ((n : Int) : K) = n := by
  unfold pyRound
  dsimp only
  rw [Int.floor_intCast, sub_self, if_pos (by norm_num)]

theorem round_near (x : K) : |x - pyRound x| ≤ 1 / 2 := by
  have h1 := Int.floor_le x
  have h2 := Int.lt_floor_add_one x
  unfold pyRound
  dsimp only
  split_ifs with a b d
  · rw [abs_le]; constructor <;> linarith
  · push_cast; rw [abs_le]; constructor <;> linarith
  · rw [abs_le]; constructor <;> linarith
  · push_cast; rw [abs_le]; constructor <;> linarith

theorem line_numbers {size cell : K} {n : Nat} (hs : cell * n = size) (h0 : size ≠ 0) (hn : n ≠ 0) (k : Int) (x : K) :
    k * size / n = k * cell ∧ k * cell * n / size = k ∧ (0 < size → |x - pyRound (x * n / size) * cell| ≤ cell / 2) := by
  have hn' : (n : K) ≠ 0 := by exact_mod_cast hn
  subst hs
  have hc : cell ≠ 0 := fun e => h0 (by rw [e, zero_mul])
  refine ⟨by field_simp, by field_simp, fun hp => ?_⟩
  have hcp : 0 < cell := by
    have : (0 : K) < n := by positivity
    exact (mul_pos_iff_of_pos_right this).1 hp
  have e : x * n / (cell * n) = x / cell := by field_simp
  rw [e]
  have := round_near (x / cell)
  have e2 : x - pyRound (x / cell) * cell = (x / cell - pyRound (x / cell)) * cell := by field_simp
  rw [e2, abs_mul, abs_of_pos hcp]
  calc _ ≤ 1 / 2 * cell := mul_le_mul_of_nonneg_right this hcp.le
    _ = cell / 2 := by ring

/-- **C116.**  If the numbers of cells in the file are whole: the place shown for a row or column is its place in the run, the row or column of that place is
itself, and of any place the nearest one. -/
theorem C116_places_partial (b : Build) (j : Json K) (c : Conf K) (hs : Says b j c) (m : Meta K) (h : Shows c m)
    (hr : m.gridR = .num c.geo.nr) (hz : m.gridZ = .num c.geo.nz) (k : Int) (x : K) :
    radiusByRow m k = some (k * c.geo.cellR) ∧ rowByRadius m (k * c.geo.cellR) = some k ∧
    longitudeByCol m k = some (k * c.geo.cellZ) ∧ colByLongitude m (k * c.geo.cellZ) = some k ∧
    (0 < c.geo.sizeR → ∃ n, rowByRadius m x = some n ∧ |x - n * c.geo.cellR| ≤ c.geo.cellR / 2) ∧
    (0 < c.geo.sizeZ → ∃ n, colByLongitude m x = some n ∧ |x - n * c.geo.cellZ| ≤ c.geo.cellZ / 2) := by
  have hn1 : (c.geo.nr : K) ≠ 0 := by exact_mod_cast hs.gridR.2
  have hn2 : (c.geo.nz : K) ≠ 0 := by exact_mod_cast hs.gridZ.2
  obtain ⟨a1, a2, a3⟩ := line_numbers hs.cellR hs.sizeR.2 hs.gridR.2 k x
  obtain ⟨b1, b2, b3⟩ := line_numbers hs.cellZ hs.sizeZ.2 hs.gridZ.2 k x
  unfold radiusByRow rowByRadius longitudeByCol colByLongitude pyDiv
  simp only [hr, hz, h.sizeR, h.sizeZ, asNum, Option.bind_some, if_neg hn1, if_neg hn2, if_neg hs.sizeR.2, if_neg hs.sizeZ.2, a1, a2, b1, b2,
    round_int]
  exact ⟨trivial, trivial, trivial, trivial, fun p => ⟨_, rfl, a3 p⟩, fun p => ⟨_, rfl, b3 p⟩⟩

/-- **C116**, refuted: if the number of cells in the file is not whole, every row but the first is shown at a wrong place. -/
theorem C116_places_fails (b : Build) (j : Json K) (c : Conf K) (hs : Says b j c) (m : Meta K) (h : Shows c m) (x : K)
    (hr : m.gridR = .num x) (hx : x ≠ c.geo.nr) (hx0 : x ≠ 0) (k : Int) (hk : k ≠ 0) :
    ∃ y, radiusByRow m k = some y ∧ y ≠ k * c.geo.cellR := by
  have hn1 : (c.geo.nr : K) ≠ 0 := by exact_mod_cast hs.gridR.2
  have hk' : (k : K) ≠ 0 := by exact_mod_cast hk
  refine ⟨k * c.geo.sizeR / x, ?_, ?_⟩
  · unfold radiusByRow pyDiv
    simp only [hr, h.sizeR, asNum, Option.bind_some, if_neg hx0]
  · rw [← hs.cellR]
    have hc : c.geo.cellR ≠ 0 := by
      intro e
      have := hs.cellR
      rw [e, zero_mul] at this
      exact hs.sizeR.2 this.symm
    intro e
    rw [div_eq_iff hx0] at e
    have e' : (k * c.geo.cellR) * (c.geo.nr : K) = (k * c.geo.cellR) * x := by linarith
    exact hx (mul_left_cancel₀ (mul_ne_zero hk' hc) e').symm

/-- **C116.**  The time shown for a frame of a probe is the time at which the run wrote it, and the frame shown for this time is that frame. -/
theorem C116_frames (c : Conf K) (m : Meta K) (h : Shows c m) (h0 : c.time.step ≠ 0) (schedule : Nat) (hsch : 0 < schedule) (f : Nat)
    (hf : f * schedule < 2 ^ 31) :
    ∃ t, timestamp m f schedule = some t ∧ frameNumber m t schedule = some f ∧
      (Out.stepNo id t c.time.step >>= fun n => Out.frame schedule n) = .ok (some f) := by
  have hs0 : (schedule : K) ≠ 0 := by exact_mod_cast hsch.ne'
  refine ⟨f * c.time.step * schedule, ?_, ?_, ?_⟩
  · unfold timestamp
    simp only [h.step, asNum, Option.bind_some]
    norm_cast
  · unfold frameNumber pyDiv
    simp only [h.step, asNum, Option.bind_some, if_neg h0, if_neg hs0]
    have e : (f : K) * c.time.step * schedule / c.time.step / schedule = ((f : Int) : K) := by
      push_cast
      field_simp
    rw [e, round_int]
    rfl
  · unfold Out.stepNo
    rw [if_neg h0]
    have e : ⌈id ((f : K) * c.time.step * schedule / c.time.step)⌉ = ((f * schedule : Nat) : Int) := by
      have : id ((f : K) * c.time.step * schedule / c.time.step) = (((f * schedule : Nat) : Int) : K) := by
        rw [id]
        push_cast
        field_simp
      rw [this, Int.ceil_intCast]
    simp only [e]
    rw [if_pos ⟨by omega, by exact_mod_cast hf⟩]
    unfold Out.frame
    simp only [Res.ok_bind]
    rw [if_neg hsch.ne', Int.toNat_natCast, Nat.mul_mod_left, if_pos rfl, Nat.mul_div_cancel _ hsch]

end

/-! ### Example -/

/-- Values for plotting. -/
def exPlot : Json ℚ := .obj [
  ("subplot", .obj [("cmap", .null), ("ticks", .obj [("x_amount", .num 20), ("y_amount", .num 8), ("z_amount", .num 20), ("cbar_amount", .num 5)])]),
  ("figure", .obj [("color", .null), ("width", .num 19), ("height", .num 10), ("dpi", .num 150),
    ("font", .obj [("family", .null), ("size", .num 10), ("name", .null)])]),
  ("video", .obj [("codec", .null), ("fps", .num 10), ("bitrate", .num 32000)])]

/-- The example with or without them; a `"data"` that comes first is the one in use. -/
def exFile (plot : List (String × Json ℚ)) : Json ℚ := exJson 2 [("comment", .str ['x']),
  ("data", .obj ([("data_root", .str ['.']), ("compression", .obj [("use", .bool false), ("level", .num 1)]),
      ("probes", .arr [.obj [("component", .str ['E', '/', 'r']), ("schedule", .num 10), ("shape", .str ['r', 'e', 'c']),
        ("start", .obj [("r", .num 0), ("z", .num 0)]), ("end", .obj [("r", .num 4), ("z", .num 8)])]])] ++ plot))]

theorem ex_start (plot : List (String × Json ℚ)) (h : read exBuild (exFile plot) = .ok (exConf 2 ([170, 170], [170]))) :
    ∃ a, Config.start (fun _ => .ok ()) exBuild (exFile plot) = .ok (exConf 2 ([170, 170], [170]), a) :=
  ⟨_, (C115_start (fun _ => .ok ()) exBuild .flat .thermal .boris .zigzag rfl rfl rfl rfl rfl _ _ _).2
    ⟨(C115_read _ _ _).1 h, rfl, by decide, ['x'], by rw [exFile, exJson, at_one]; rfl, rfl⟩⟩

theorem ex_complete : Complete (exFile [("plot", exPlot)]) := by
  refine ⟨⟨⟨_, rfl⟩, _, rfl⟩, ?_, ?_⟩
  · intro k hk
    simp only [List.mem_cons, List.not_mem_nil, or_false] at hk
    rcases hk with rfl | rfl | rfl | rfl | rfl <;> exact ⟨_, rfl⟩
  · intro p hp
    simp only [plotPaths, List.mem_cons, List.not_mem_nil, or_false] at hp
    rcases hp with rfl | rfl | rfl | rfl | rfl | rfl | rfl | rfl | rfl | rfl | rfl | rfl | rfl | rfl | rfl <;> exact ⟨_, rfl⟩

/-- A file that can be opened. -/
example : ∃ a m, Config.start (fun _ => .ok ()) exBuild (exFile [("plot", exPlot)]) = .ok (exConf 2 ([170, 170], [170]), a) ∧
    openFile a ['.'] = some m ∧ Shows (exConf 2 ([170, 170], [170])) m := by
  obtain ⟨a, ha⟩ := ex_start [("plot", exPlot)] (by decide +kernel)
  obtain ⟨m, hm, hs⟩ := C116_shows_partial (fun _ => .ok ()) exBuild .flat .thermal .boris .zigzag rfl rfl rfl rfl rfl _ _ a ha ['.'] ex_complete
  exact ⟨a, m, ha, hm, hs⟩

/-- A run whose file cannot be opened. -/
example : ∃ a, Config.start (fun _ => .ok ()) exBuild (exFile []) = .ok (exConf 2 ([170, 170], [170]), a) ∧ openFile a ['.'] = none := by
  obtain ⟨a, ha⟩ := ex_start [] (by decide +kernel)
  exact ⟨a, ha, C116_plot_fails (fun _ => .ok ()) exBuild .flat .thermal .boris .zigzag rfl rfl rfl rfl rfl _ _ a ha ['.'] rfl⟩

end MetaReader
end Pico
