import Verif.Lemmas.Config

/-!
# C115: the configuration file is read as it is written, and recorded with the results

The program ends up with `c` exactly if the file says so (`C115_read`); nothing else in the file matters (`C115_unused`).  The configuration
stored with the results gives the same configuration again (`C115_again`), and the attributes of the output file are known (`C115_start`).
-/

set_option linter.unusedSimpArgs false
set_option linter.unusedSectionVars false

namespace Pico
namespace Config

open Species Probe GeoCfg

variable {K : Type}

theorem at_put (l : List (String × Json K)) (k k' : String) (v : Json K) (p : List String) (h : k' ≠ k) :
    (Json.obj (put l k v)).at (k' :: p) = (Json.obj l).at (k' :: p) := by
  rw [at_obj, at_obj, look_put_ne _ _ _ _ h]

section
variable [Field K] [LinearOrder K] [IsStrictOrderedRing K] [FloorRing K]

/-- **C115.**  Reading succeeds with the configuration `c` exactly if the file says `c`: every value it needs is there, has the right type,
fits its variable, names are unique and the probes are rectangles inside of the volume. -/
theorem C115_read (b : Build) (j : Json K) (c : Conf K) : read b j = .ok c ↔ Says b j c := by
  unfold read
  simp only [bind_iff, obj_iff, key_str, key_num, toUInt_iff]
  constructor
  · rintro ⟨root, rfl, log, hlog, total, htotal, x, hx, ratio, hratio, g, hg, time, ht, ss, hss, bs, hbs, am, ham, out, hout, pr, hpr, ext,
      hext, e⟩
    obtain ⟨w, s1, s2⟩ := g
    obtain ⟨r, u, n⟩ := out
    obtain ⟨el, ma⟩ := ext
    have hc := Res.ok.inj e
    clear e
    dsimp only at hc ham hpr
    rw [readGeometry_iff] at hg
    rw [readTime_iff] at ht
    rw [readSpecies_iff] at hss
    rw [readBeams_iff] at hbs
    rw [readOutput_iff] at hout
    rw [readProbes_iff] at hpr
    rw [readFields_iff] at hext
    have ham' : readAmounts b c.total c.ratio c.geo c.species c.beams = .ok c.amounts := by
      rw [← hc]
      exact ham
    rw [readAmounts_iff] at ham'
    rw [look_put_ne _ _ _ _ (by decide), ← at_one] at htotal hx
    rw [← at_one] at hlog
    simp only [IntAt, NatAt, LayerAt, FieldSays, List.cons_append, List.nil_append, at_put, ne_eq, String.reduceEq, not_false_eq_true]
      at hg ht hss hbs hout hpr hext
    obtain ⟨g1, g2, g3, g4, g5, g6, g7, g8, g9⟩ := hg
    subst hc
    exact ⟨ham'.1, hlog, htotal, ⟨x, hx, hratio⟩, g1, g2, g3, g4, g5, g6, g7, g8, g9, ht.1, ht.2.1, ht.2.2.1, ht.2.2.2, hss.1, hss.2, hbs.1,
      hbs.2, ham'.2, hout.1, hout.2.1, hout.2.2, hpr, hext⟩
  · intro h
    obtain ⟨root, v, rfl, -, -⟩ := at_cons h.log
    obtain ⟨x, hx, hratio⟩ := h.ratio
    have hlog := h.log
    have htotal := h.total
    rw [at_one] at hlog
    have hg : readGeometry b (put root "build_options" (.obj (options b))) = .ok (c.geo, c.sigma1, c.sigma2) := by
      rw [readGeometry_iff]
      have := And.intro h.sizeR <| And.intro h.sizeZ <| And.intro h.gridR <| And.intro h.gridZ <| And.intro h.cellR <|
        And.intro h.cellZ <| And.intro h.all <| And.intro h.layers h.domains
      simpa only [IntAt, NatAt, LayerAt, at_put, ne_eq, String.reduceEq, not_false_eq_true] using this
    have ht : readTime (put root "build_options" (.obj (options b))) = .ok c.time := by
      rw [readTime_iff]
      simpa only [at_put, ne_eq, String.reduceEq, not_false_eq_true] using
        And.intro h.begins <| And.intro h.stops <| And.intro h.step h.current
    have hss : readSpecies (put root "build_options" (.obj (options b))) = .ok c.species := by
      rw [readSpecies_iff]
      simpa only [at_put, ne_eq, String.reduceEq, not_false_eq_true] using And.intro h.species h.speciesNames
    have hbs : readBeams (put root "build_options" (.obj (options b))) = .ok c.beams := by
      rw [readBeams_iff]
      simpa only [at_put, ne_eq, String.reduceEq, not_false_eq_true] using And.intro h.beams h.beamNames
    have hout : readOutput (put root "build_options" (.obj (options b))) = .ok (c.root, c.compress, c.level) := by
      rw [readOutput_iff]
      simpa only [IntAt, at_put, ne_eq, String.reduceEq, not_false_eq_true] using And.intro h.root <| And.intro h.compress h.level
    have hpr : readProbes c.geo.nr c.geo.nz (put root "build_options" (.obj (options b))) = .ok c.probes := by
      rw [readProbes_iff]
      simpa only [at_put, ne_eq, String.reduceEq, not_false_eq_true] using h.probes
    have hext : readFields b (put root "build_options" (.obj (options b))) = .ok (c.electric, c.magnetic) := by
      rw [readFields_iff]
      simpa only [FieldSays, List.cons_append, List.nil_append, at_put, ne_eq, String.reduceEq, not_false_eq_true] using h.fields
    refine ⟨root, rfl, c.log, hlog, c.total, ?_, x, ?_, c.ratio, hratio, _, hg, _, ht, _, hss, _, hbs, c.amounts, ?_, _, hout, _, hpr, _, hext,
      rfl⟩
    · rw [look_put_ne _ _ _ _ (by decide), ← at_one]
      exact htotal
    · rw [look_put_ne _ _ _ _ (by decide), ← at_one]
      exact hx
    · exact (readAmounts_iff c).2 ⟨h.pusher, h.amounts⟩

/-- The keys of the file the program uses. -/
def usedKeys : List String :=
  ["log_file", "macro_amount", "beam_plasma_macro_size_ratio", "geometry", "time", "particles", "beams", "data", "external_fields"]

omit [Field K] [LinearOrder K] [IsStrictOrderedRing K] [FloorRing K] in
theorem at_same {j j' : Json K} {k : String} (h : j.at [k] = j'.at [k]) (p : List String) : j.at (k :: p) = j'.at (k :: p) := by
  have g : ∀ v : Json K, v.at (k :: p) = (v.at [k]).bind fun w => w.at p := by
    intro v
    cases v with
    | obj l => rw [at_one, at_obj]
    | _ => simp [Json.at]
  rw [g, g, h]

theorem says_same {b : Build} {j j' : Json K} (h : ∀ k ∈ usedKeys, j.at [k] = j'.at [k]) {c : Conf K} (hs : Says b j c) : Says b j' c := by
  have g : ∀ k ∈ usedKeys, ∀ p, j.at (k :: p) = j'.at (k :: p) := fun k hk p => at_same (h k hk) p
  have a1 := g "log_file" (by decide)
  have a2 := g "macro_amount" (by decide)
  have a3 := g "beam_plasma_macro_size_ratio" (by decide)
  have a4 := g "geometry" (by decide)
  have a5 := g "time" (by decide)
  have a6 := g "particles" (by decide)
  have a7 := g "beams" (by decide)
  have a8 := g "data" (by decide)
  have a9 := g "external_fields" (by decide)
  obtain ⟨f1, f2, f3, f4, f5, f6, f7, f8, f9, f10, f11, f12, f13, f14, f15, f16, f17, f18, f19, f20, f21, f22, f23, f24, f25, f26, f27⟩ := hs
  simp only [IntAt, NatAt, LayerAt, FieldSays, List.cons_append, List.nil_append, a1, a2, a3, a4, a5, a6, a7, a8, a9]
    at f1 f2 f3 f4 f5 f6 f7 f8 f9 f10 f11 f12 f13 f14 f15 f16 f17 f18 f19 f20 f21 f22 f23 f24 f25 f26 f27
  exact ⟨f1, f2, f3, f4, f5, f6, f7, f8, f9, f10, f11, f12, f13, f14, f15, f16, f17, f18, f19, f20, f21, f22, f23, f24, f25, f26, f27⟩

/-- **C115.**  Files that agree on the keys in use are read alike, whatever else they have. -/
theorem C115_unused (b : Build) (j j' : Json K) (h : ∀ k ∈ usedKeys, j.at [k] = j'.at [k]) (c : Conf K) :
    read b j = .ok c ↔ read b j' = .ok c := by
  rw [C115_read, C115_read]
  exact ⟨says_same h, says_same fun k hk => (h k hk).symm⟩

/-! ### The configuration stored with the results -/

theorem probe_note {nr nz : Nat} {v : Json K} {p : ProbeData} : ProbeSays nr nz (noteProbe v) p ↔ ProbeSays nr nz v p := by
  cases v with
  | obj l =>
    cases e : look l "specie" with
    | some w =>
      have en : noteProbe (Json.obj l) = .obj l := by simp only [noteProbe, e]
      rw [en]
    | none =>
      have en : noteProbe (Json.obj l) = .obj (put l "specie" .null) := by simp only [noteProbe, e]
      rw [en]
      have s0 : (Json.obj (put l "specie" Json.null)).at ["specie"] = some .null := by rw [at_one, look_put]
      have s1 : (Json.obj l).at ["specie"] = none := by rw [at_one, e]
      constructor
      · rintro ⟨f1, f2, f3, f4, f5, f6, f7, f8, f9, f10⟩
        simp only [IntAt, NatAt, at_put, ne_eq, String.reduceEq, not_false_eq_true, s0] at f1 f2 f3 f4 f5 f6 f7 f8 f9 f10
        refine ⟨f1, .inr ⟨by simp [s1], ?_⟩, f3, f4, f5, f6, f7, f8, f9, f10⟩
        rcases f2 with f2 | f2
        · simp at f2
        · exact f2.2
      · rintro ⟨f1, f2, f3, f4, f5, f6, f7, f8, f9, f10⟩
        simp only [s1] at f2
        have f2' : p.specie = "unknown".toList := by
          rcases f2 with f2 | f2
          · simp at f2
          · exact f2.2
        refine ⟨?_, .inr ⟨by simp [s0], f2'⟩, ?_, ?_, ?_, ?_, ?_, f8, ?_, f10⟩
        all_goals simpa only [IntAt, NatAt, at_put, ne_eq, String.reduceEq, not_false_eq_true]
  | _ => rfl

theorem data_note (d : Json K) (k : String) (p : List String) (h : k ≠ "probes") : (noteData d).at (k :: p) = d.at (k :: p) := by
  cases d with
  | obj l =>
    simp only [noteData]
    split
    · rw [at_put _ _ _ _ _ h]
    · rfl
  | _ => rfl

theorem probes_note (d : Json K) (nr nz : Nat) (r : List ProbeData) :
    (∃ l, (noteData d).at ["probes"] = some (.arr l) ∧ List.Forall₂ (ProbeSays nr nz) l r) ↔
      ∃ l, d.at ["probes"] = some (.arr l) ∧ List.Forall₂ (ProbeSays nr nz) l r := by
  cases d with
  | obj o =>
    simp only [noteData]
    split
    · rename_i l e
      rw [at_one, at_one, look_put, e]
      constructor
      · rintro ⟨l', h, hl⟩
        cases h
        rw [List.forall₂_map_left_iff] at hl
        exact ⟨l, rfl, hl.imp fun _ _ h => probe_note.1 h⟩
      · rintro ⟨l', h, hl⟩
        cases h
        refine ⟨_, rfl, ?_⟩
        rw [List.forall₂_map_left_iff]
        exact hl.imp fun _ _ h => probe_note.2 h
    · rfl
  | _ => rfl

omit [Field K] [LinearOrder K] [IsStrictOrderedRing K] [FloorRing K] in
theorem kept_at (b : Build) (j : Json K) (k : String) (p : List String) (h : k ≠ "build_options") (h' : k ≠ "data") :
    (kept b j).at (k :: p) = j.at (k :: p) := by
  cases j with
  | obj l =>
    unfold kept
    dsimp only
    split
    · rw [at_put _ _ _ _ _ h', at_put _ _ _ _ _ h]
    · rw [at_put _ _ _ _ _ h]
  | _ => rfl

omit [Field K] [LinearOrder K] [IsStrictOrderedRing K] [FloorRing K] in
theorem kept_data (b : Build) (j : Json K) : (kept b j).at ["data"] = (j.at ["data"]).map noteData := by
  cases j with
  | obj l =>
    unfold kept
    dsimp only
    rw [at_one, look_put_ne _ _ _ _ (by decide)]
    cases e : look l "data" with
    | none => rw [at_one, look_put_ne _ _ _ _ (by decide), e]; rfl
    | some d =>
      dsimp only
      rw [at_one, look_put, e]
      rfl
  | _ => rfl

omit [Field K] [LinearOrder K] [IsStrictOrderedRing K] [FloorRing K] in
theorem at_two (j : Json K) (k : String) (p : List String) : j.at (k :: p) = (j.at [k]).bind fun w => w.at p := by
  cases j with
  | obj l => rw [at_one, at_obj]
  | _ => simp [Json.at]

theorem kept_data_at (b : Build) (j : Json K) (k : String) (p : List String) (h : k ≠ "probes") :
    (kept b j).at ("data" :: k :: p) = j.at ("data" :: k :: p) := by
  rw [at_two, at_two j, kept_data]
  cases j.at ["data"] with
  | none => rfl
  | some d =>
    rw [Option.map_some, Option.bind_some, Option.bind_some, data_note _ _ _ h]

theorem kept_probes (b : Build) (j : Json K) (nr nz : Nat) (r : List ProbeData) :
    (∃ l, (kept b j).at ["data", "probes"] = some (.arr l) ∧ List.Forall₂ (ProbeSays nr nz) l r) ↔
      ∃ l, j.at ["data", "probes"] = some (.arr l) ∧ List.Forall₂ (ProbeSays nr nz) l r := by
  rw [at_two, at_two j, kept_data]
  cases j.at ["data"] with
  | none => rfl
  | some d =>
    rw [Option.map_some, Option.bind_some, Option.bind_some]
    exact probes_note d nr nz r

/-- **C115.**  The configuration stored with the results is read (by the same or another program) as the original file is. -/
theorem C115_again (b b' : Build) (j : Json K) (c : Conf K) : read b' (kept b j) = .ok c ↔ read b' j = .ok c := by
  rw [C115_read, C115_read]
  have hp := kept_probes b j c.geo.nr c.geo.nz c.probes
  constructor
  · rintro ⟨f1, f2, f3, f4, f5, f6, f7, f8, f9, f10, f11, f12, f13, f14, f15, f16, f17, f18, f19, f20, f21, f22, f23, f24, f25, f26, f27⟩
    simp only [IntAt, NatAt, LayerAt, FieldSays, List.cons_append, List.nil_append, kept_at, kept_data_at, ne_eq, String.reduceEq, not_false_eq_true]
      at f1 f2 f3 f4 f5 f6 f7 f8 f9 f10 f11 f12 f13 f14 f15 f16 f17 f18 f19 f20 f21 f22 f23 f24 f25 f27
    exact ⟨f1, f2, f3, f4, f5, f6, f7, f8, f9, f10, f11, f12, f13, f14, f15, f16, f17, f18, f19, f20, f21, f22, f23, f24, f25, hp.1 f26, f27⟩
  · rintro ⟨f1, f2, f3, f4, f5, f6, f7, f8, f9, f10, f11, f12, f13, f14, f15, f16, f17, f18, f19, f20, f21, f22, f23, f24, f25, f26, f27⟩
    refine ⟨f1, ?_, ?_, ?_, ?_, ?_, ?_, ?_, f9, f10, f11, ?_, ?_, ?_, ?_, ?_, f17, ?_, f19, ?_, f21, f22, ?_, ?_, ?_, hp.2 f26, ?_⟩
    all_goals simpa only [IntAt, NatAt, LayerAt, FieldSays, List.cons_append, List.nil_append, kept_at, kept_data_at, ne_eq, String.reduceEq,
      not_false_eq_true]

/-! ### The attributes of the output file -/

/-- The attributes a complete build gives the file of a run. -/
def attributes (b : Build) (j : Json K) (sp : Pic.Spatial) (sv : Pic.Speedy) (pk : Pusher.Kind) (dp : Deposition) (comment : List Char) :
    List (String × Attr K) :=
  [("metadata", .config j), ("software", .text b.package), ("softwareVersion", .text b.version), ("softwareBuildFlags", .text b.flags),
    ("softwareDependencies", .text b.deps), ("softwareConfigDebug", .flag b.debug), ("softwareConfigIEEE", .flag b.ieee),
    ("softwareConfigCurrentDeposition", .text (depositionText dp)), ("softwareConfigFieldSolver", .text "yee".toList),
    ("softwareConfigParticlesPusher", .text (pusherText pk)), ("softwareConfigPlasmaVelocityDistribution", .text (speedyText sv)),
    ("softwareConfigPlasmaSpatialDistribution", .text (spatialText sp)), ("comment", .text comment)]

omit [Field K] [LinearOrder K] [IsStrictOrderedRing K] [FloorRing K] in
theorem kept_options (b : Build) (l : List (String × Json K)) :
    ∃ o, kept b (.obj l) = .obj o ∧ look o "build_options" = some (.obj (options b)) ∧ look o "comment" = look l "comment" := by
  unfold kept
  dsimp only
  cases e : look (put l "build_options" (.obj (options b))) "data" with
  | none =>
    exact ⟨_, rfl, look_put _ _ _, look_put_ne _ _ _ _ (by decide)⟩
  | some d =>
    exact ⟨_, rfl, by rw [look_put_ne _ _ _ _ (by decide), look_put], by rw [look_put_ne _ _ _ _ (by decide), look_put_ne _ _ _ _ (by decide)]⟩

omit [Field K] [LinearOrder K] [IsStrictOrderedRing K] [FloorRing K] in
/-- What is written for a complete build. -/
theorem write_complete (b : Build) (l : List (String × Json K)) (sp : Pic.Spatial) (sv : Pic.Speedy) (pk : Pusher.Kind) (dp : Deposition)
    (h1 : b.spatial = some sp) (h2 : b.speedy = some sv) (h3 : b.pusher = some pk) (h4 : b.deposition = some dp) (h5 : b.yee = true) :
    writeMeta b (kept b (.obj l)) [] = (strAt l "comment" >>= fun s => .ok (attributes b (kept b (.obj l)) sp sv pk dp s)) := by
  obtain ⟨o, ho, hb, hc⟩ := kept_options b l
  rw [ho]
  have hkey : ∀ k, optionAt (Json.obj o) k = .ok (key (options b) k) := by
    intro k
    unfold optionAt
    simp only [Json.toObj, Res.ok_bind, (key_obj (l := o) (k := "build_options")).2 hb]
  have hcom : strAt o "comment" = strAt l "comment" := by
    unfold strAt key
    rw [hc]
  have k1 : key (options b) "debug" = (.bool b.debug : Json K) := by simp [options, key, look, entry]
  have k2 : key (options b) "ieee" = (.bool b.ieee : Json K) := by simp [options, key, look, entry]
  have k3 : key (options b) "current_deposition" = (.str (depositionText dp) : Json K) := by
    simp [options, key, look, entry, h1, h2, h3, h4, h5]
  have k4 : key (options b) "maxwell_solver" = (.str "yee".toList : Json K) := by
    simp [options, key, look, entry, h1, h2, h3, h4, h5]
  have k5 : key (options b) "particles_pusher" = (.str (pusherText pk) : Json K) := by
    simp [options, key, look, entry, h1, h2, h3, h4, h5]
  have k6 : key (options b) "plasma_velocity_distribution" = (.str (speedyText sv) : Json K) := by
    simp [options, key, look, entry, h1, h2, h3, h4, h5]
  have k7 : key (options b) "plasma_spatial_distribution" = (.str (spatialText sp) : Json K) := by
    simp [options, key, look, entry, h1, h2, h3, h4, h5]
  unfold writeMeta attachFlag attachOption
  simp only [hkey, k1, k2, k3, k4, k5, k6, k7, Res.ok_bind, Json.toStr, Json.toBool, hcom, Json.toObj]
  simp only [attach, List.map_nil, List.not_mem_nil, if_false, List.nil_append, Res.ok_bind, List.map_cons, List.mem_cons, String.reduceEq,
    false_or, or_false, List.cons_append]
  rfl

/-- **C115.**  For a complete build: the attributes of the new output file tell the program's version, flags and choices, the comment and the
configuration.  The run gets there exactly if the file says a configuration that passes the checks, with a probe and with a comment. -/
theorem C115_start (check : Conf K → Res Unit) (b : Build) (sp : Pic.Spatial) (sv : Pic.Speedy) (pk : Pusher.Kind) (dp : Deposition)
    (h1 : b.spatial = some sp) (h2 : b.speedy = some sv) (h3 : b.pusher = some pk) (h4 : b.deposition = some dp) (h5 : b.yee = true)
    (j : Json K) (c : Conf K) (a : List (String × Attr K)) :
    start check b j = .ok (c, a) ↔
      Says b j c ∧ check c = .ok () ∧ c.probes ≠ [] ∧
        ∃ s, j.at ["comment"] = some (.str s) ∧ a = attributes b (kept b j) sp sv pk dp s := by
  unfold start
  simp only [bind_iff, C115_read]
  constructor
  · rintro ⟨c', hs, u, hc, h⟩
    split_ifs at h with hp
    obtain ⟨root, v, rfl, -, -⟩ := at_cons hs.log
    rw [write_complete b root sp sv pk dp h1 h2 h3 h4 h5] at h
    simp only [bind_iff, key_str] at h
    obtain ⟨a', ⟨s, hs', e⟩, e'⟩ := h
    cases e
    cases e'
    exact ⟨hs, hc, hp, s, by rw [at_one]; exact hs', rfl⟩
  · rintro ⟨hs, hc, hp, s, hs', rfl⟩
    obtain ⟨root, v, rfl, -, -⟩ := at_cons hs.log
    refine ⟨c, hs, (), hc, ?_⟩
    rw [if_neg hp, write_complete b root sp sv pk dp h1 h2 h3 h4 h5]
    simp only [bind_iff, key_str]
    rw [at_one] at hs'
    exact ⟨_, ⟨s, hs', rfl⟩, rfl⟩

/-- **C115**, refuted: the comment looks optional, since the reader of the configuration does not use it.  A configuration without it is accepted, but the program
ends when the output file has already been made. -/
theorem C115_comment_fails (check : Conf K → Res Unit) (b : Build) (sp : Pic.Spatial) (sv : Pic.Speedy) (pk : Pusher.Kind) (dp : Deposition)
    (h1 : b.spatial = some sp) (h2 : b.speedy = some sv) (h3 : b.pusher = some pk) (h4 : b.deposition = some dp) (h5 : b.yee = true)
    (j : Json K) (c : Conf K) (hr : read b j = .ok c) (hc : check c = .ok ()) (hp : c.probes ≠ []) (hn : j.at ["comment"] = none) :
    start check b j = .fatal := by
  have hs := (C115_read b j c).1 hr
  obtain ⟨root, v, rfl, -, -⟩ := at_cons hs.log
  unfold start
  rw [hr, Res.ok_bind, hc, Res.ok_bind, if_neg hp, write_complete b root sp sv pk dp h1 h2 h3 h4 h5]
  rw [at_one] at hn
  unfold strAt key
  rw [hn]
  rfl

/-- **C115**, refuted: without probes the program has no defined behaviour. -/
theorem C115_probes_fails (check : Conf K → Res Unit) (b : Build) (j : Json K) (c : Conf K) (hr : read b j = .ok c) (hc : check c = .ok ())
    (hp : c.probes = []) : start check b j = .ub := by
  unfold start
  rw [hr, Res.ok_bind, hc, Res.ok_bind, if_pos hp]

/-- **C115**, refuted: the output file does not tell how it was made.  Builds with and without collisions (or with another scheme), for one or for several
processes, write the same attributes. -/
theorem C115_builds_fails (check : Conf K → Res Unit) (b : Build) (j : Json K) (m : Option Coll.Method) (mpi : Bool) :
    start check { b with collisions := m, mpi := mpi } j = start check b j := rfl

/-- **C115**, refuted: so do builds with and without external fields, if the file has values for these fields, though only one uses them. -/
theorem C115_fields_fails (b : Build) (j : Json K) :
    kept { b with external := true } j = kept b j ∧ kept { b with pml := true } j = kept b j ∧ kept { b with single := true } j = kept b j :=
  ⟨rfl, rfl, rfl⟩

/-- **C115**, refuted: a ratio of beam to plasma macroparticles below one is taken as zero, and no beam gets a macroparticle. -/
theorem C115_ratio_fails (b : Build) (j : Json K) (c : Conf K) (hr : read b j = .ok c) (x : K)
    (hx : j.at ["beam_plasma_macro_size_ratio"] = some (.num x)) (h1 : x < 1) : c.ratio = 0 ∧ ∀ n ∈ c.amounts.2, n = 0 := by
  have hs := (C115_read b j c).1 hr
  obtain ⟨y, hy, hcut, -⟩ := hs.ratio
  rw [hx] at hy
  cases hy
  have h0 : c.ratio = 0 := by
    have l := cut_low hcut
    by_contra hne
    have : (1 : K) ≤ c.ratio := by
      have : 1 ≤ c.ratio := Nat.one_le_iff_ne_zero.2 hne
      exact_mod_cast this
    unfold Cut at hcut
    split_ifs at hcut with hh
    · have := hcut.1
      push_cast at this
      linarith
    · have := hcut.1
      push_cast at this
      linarith [not_le.1 hh]
  refine ⟨h0, ?_⟩
  have ha := hs.amounts
  split_ifs at ha with he
  · rw [ha]
    intro n hn
    simp at hn
  · have hb := ha.beams
    rw [h0] at hb
    intro n hn
    obtain ⟨i, hi, e⟩ := List.getElem_of_mem hn
    have := hb.get (by rw [hb.length_eq]; exact hi) hi
    simp only [List.get_eq_getElem, Nat.cast_zero, mul_zero] at this
    rw [e] at this
    have z : Cut (0 : K) 0 := by
      unfold Cut
      simp
    have := cut_det this.1 z
    exact_mod_cast this

end

/-! ### Example -/

deriving instance DecidableEq for Species.Specie
deriving instance DecidableEq for GeoCfg.Whole
deriving instance DecidableEq for Out.Time
deriving instance DecidableEq for BeamData
deriving instance DecidableEq for ProbeData
deriving instance DecidableEq for FieldData
deriving instance DecidableEq for Conf

/-- A build with external fields, the Boris pusher and the deposition `zigzag`. -/
def exBuild : Build :=
  { package := "PiCoPiC".toList, version := "2".toList, flags := [], deps := [], debug := false, ieee := false, spatial := some .flat,
    speedy := some .thermal, pusher := some .boris, deposition := some .zigzag, yee := true, pml := true, single := false,
    external := true, mpi := false, collisions := none }

/-- A file like `/repo/PiCoPiC.json`; with `ratio` and the top-level entries `more`. -/
def exJson (ratio : ℚ) (more : List (String × Json ℚ)) : Json ℚ :=
  .obj (more ++ [("macro_amount", .num 512), ("beam_plasma_macro_size_ratio", .num ratio), ("log_file", .str ['l']),
    ("geometry", .obj [
      ("size", .obj [("radius", .num 2), ("longitude", .num 8)]),
      ("grid", .obj [("radius", .num 4), ("longitude", .num (17 / 2))]),
      ("domains_amount", .obj [("radius", .num 1), ("longitude", .num 2)]),
      ("pml", .obj [("left_wall", .num 0), ("right_wall", .num (1 / 4)), ("outer_wall", .num (1 / 3)), ("sigma_1", .num 1), ("sigma_2", .num 2)])]),
    ("time", .obj [("start", .num 0), ("end", .num 10), ("step", .num (1 / 10))]),
    ("external_fields", .obj [
      ("electric", .obj [("formfactor", .str ['n']), ("params", .arr [.num 1, .num 2])]),
      ("magnetic", .obj [("formfactor", .str ['c']), ("params", .arr [.num 3])])]),
    ("particles", .arr [
      .obj [("name", .str ['e']), ("charge", .num (-1)), ("mass", .num 1), ("density", .num 100), ("temperature", .num 1)],
      .obj [("name", .str ['i']), ("charge", .num 1), ("mass", .num 1836), ("density", .num 100), ("temperature", .num (1 / 10))]]),
    ("beams", .arr [
      .obj [("name", .str ['e']), ("charge", .num (-1)), ("mass", .num 1), ("velocity", .num 5), ("start_time", .num 0),
        ("bunch", .obj [("amount", .num 4), ("distance", .num 1), ("length", .num 2), ("radius", .num 1), ("density", .num 50),
          ("profile", .obj [("radial", .str ['r']), ("longitudinal", .str ['r'])])])]]),
    ("data", .obj [("data_root", .str ['.']), ("compression", .obj [("use", .bool false), ("level", .num 1)]),
      ("probes", .arr [.obj [("component", .str ['E', '/', 'r']), ("schedule", .num 10), ("shape", .str ['r', 'e', 'c']),
        ("start", .obj [("r", .num 0), ("z", .num 0)]), ("end", .obj [("r", .num 4), ("z", .num 8)])]])])])

/-- What the program makes of it. -/
def exConf (ratio : Nat) (am : List Nat × List Nat) : Conf ℚ :=
  { log := ['l'], total := 512, ratio := ratio,
    geo := ⟨2, 8, 4, 8, 1 / 2, 1, 4, 8, 0, 1, 2, 1, 2⟩, sigma1 := 1, sigma2 := 2, time := ⟨0, 10, 1 / 10, 0⟩,
    species := [⟨SMB.hashStr 1394 [101], ['e'], 1, -1, 100, 100, 1⟩, ⟨SMB.hashStr 1394 [105], ['i'], 1836, 1, 100, 100, 1 / 10⟩],
    beams := [⟨SMB.hashStr 18132 [98, 101, 97, 109, 95, 101], ['b', 'e', 'a', 'm', '_', 'e'], 1, -1, 0, 5, 4, 1, 2, 1, 50, ['r'], ['r']⟩],
    amounts := am, root := ['.'], compress := false, level := 1,
    probes := [⟨['E', '/', 'r'], "unknown".toList, Probe.path ['E', '/', 'r'] "unknown".toList (.rect ⟨0, 0, 4, 8⟩), ⟨0, 0, 4, 8⟩, 10⟩],
    electric := some ⟨['n'], [1, 2]⟩, magnetic := some ⟨['c'], [3]⟩ }

theorem ex_read : read exBuild (exJson 2 [("comment", .str ['x'])]) = .ok (exConf 2 ([170, 170], [170])) := by decide +kernel

/-- The file is read, a probe is there. -/
example : ∃ c, Says exBuild (exJson 2 [("comment", .str ['x'])]) c ∧ c.probes ≠ [] :=
  ⟨_, (C115_read _ _ _).1 ex_read, by decide⟩

/-- The run gets its attributes. -/
example : ∃ a, start (fun _ => .ok ()) exBuild (exJson 2 [("comment", .str ['x'])]) = .ok (exConf 2 ([170, 170], [170]), a) :=
  ⟨_, (C115_start (fun _ => .ok ()) exBuild .flat .thermal .boris .zigzag rfl rfl rfl rfl rfl _ _ _).2
    ⟨(C115_read _ _ _).1 ex_read, rfl, by decide, ['x'], by rw [exJson, at_one]; rfl, rfl⟩⟩

/-- Without the comment it ends. -/
example : start (fun _ => .ok ()) exBuild (exJson 2 []) = .fatal :=
  C115_comment_fails _ exBuild .flat .thermal .boris .zigzag rfl rfl rfl rfl rfl (exJson 2 []) (exConf 2 ([170, 170], [170]))
    (by decide +kernel) rfl (by decide) (by rw [exJson, at_one]; rfl)

/-- An entry of no use. -/
example : read exBuild (exJson 2 [("plot", .null)]) = .ok (exConf 2 ([170, 170], [170])) :=
  (C115_unused exBuild (exJson 2 [("comment", .str ['x'])]) (exJson 2 [("plot", .null)]) (by
    intro k hk
    simp only [usedKeys, List.mem_cons, List.not_mem_nil, or_false] at hk
    rcases hk with rfl | rfl | rfl | rfl | rfl | rfl | rfl | rfl | rfl <;> simp [exJson, at_one, look]) _).1 ex_read

/-- Half as many macroparticles in the beam: none at all. -/
example : ∃ c, read exBuild (exJson (1 / 2) []) = .ok c ∧ c.beams ≠ [] ∧ c.amounts.2 = [0] :=
  ⟨exConf 0 ([256, 256], [0]), by decide +kernel, by decide, rfl⟩

end Config
end Pico
