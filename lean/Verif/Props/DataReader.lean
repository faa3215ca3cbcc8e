import Verif.Spec.DataReader
import Verif.Props.Probe
import Verif.Props.PicOut
import Verif.Props.MetaReader
import Verif.Props.PicConf

/-!
# C119: the analysis library returns what the run recorded
-/

set_option linter.unusedSimpArgs false
set_option linter.unusedVariables false
set_option linter.unusedSectionVars false

namespace Pico
namespace DataReader

open Pic MetaReader Probe

instance : Nonempty Vec := ⟨⟨0, fun _ => 0⟩⟩

theorem collect_total {α β : Type _} {f : α → Option β} {g : α → β} {l : List α} (h : ∀ a ∈ l, f a = some (g a)) : collect f l = some (l.map g) := by
  induction l with
  | nil => rfl
  | cons a l ih =>
    unfold collect
    rw [h a (List.mem_cons_self ..), Option.bind_some, ih fun b hb => h b (List.mem_cons_of_mem _ hb), Option.bind_some]
    rfl

theorem collect_none {α β : Type _} {f : α → Option β} {l : List α} {a : α} (ha : a ∈ l) (h : f a = none) : collect f l = none := by
  induction l with
  | nil => cases ha
  | cons b l ih =>
    unfold collect
    rcases List.mem_cons.1 ha with rfl | ha
    · rw [h]
      rfl
    · rw [ih ha]
      cases f b <;> rfl

theorem axis_nat {n k : Nat} (h : k < n) : axis n k = some k := by
  unfold axis
  rw [if_pos (by omega), if_pos (by omega)]
  simp

theorem axis_big {n : Nat} {i : Int} (h : (n : Int) ≤ i) : axis n i = none := by
  unfold axis
  rw [if_pos (by omega), if_neg (by omega)]

theorem axis_end {n k : Nat} (h : k < n) : axis n ((k : Int) - n) = some k := by
  unfold axis
  rw [if_neg (by omega), if_pos (by omega)]
  congr 1
  omega

theorem axis_small {n : Nat} {i : Int} (h : i < -(n : Int)) : axis n i = none := by
  unfold axis
  rw [if_neg (by omega), if_neg (by omega)]

theorem mem_ints {a b i : Int} : i ∈ ints a b ↔ a ≤ i ∧ i < b := by
  unfold ints
  simp only [List.mem_map, List.mem_range]
  constructor
  · rintro ⟨k, hk, rfl⟩
    omega
  · rintro ⟨h1, h2⟩
    exact ⟨(i - a).toNat, by omega, by omega⟩

theorem ints_nat {a b : Nat} (h : a ≤ b) : ints a b = (List.range (b - a)).map fun (k : Nat) => ((a + k : Nat) : Int) := by
  unfold ints
  have e : ((b : Int) - a).toNat = b - a := by omega
  rw [e]
  push_cast
  rfl

/-- All questions are answered as soon as the dataset is found. -/
theorem answers {f : File} {component : List Char} {p : Rect} {n : Nat} {c : Nat → Nat → Nat → ℝ} {G : Nat → Nat → Nat → ℝ} (hr : p.r0 < p.r1)
    (hz : p.z0 < p.z1) (h : f (readerRec component p) = some (.set n (p.r1 - p.r0) (p.z1 - p.z0) c))
    (hc : ∀ k a b, k < n → a < p.r1 - p.r0 → b < p.z1 - p.z0 → c k a b = G k (p.r0 + a) (p.z0 + b)) : Answers f component p n G := by
  have op : ∀ i, rec f component p i = (axis n i).map fun k => ⟨p.r1 - p.r0, p.z1 - p.z0, c k⟩ := by
    intro i
    unfold rec opened
    rw [h]
  have at_ : ∀ k : Nat, k < n → rec f component p k = some ⟨p.r1 - p.r0, p.z1 - p.z0, c k⟩ := by
    intro k hk
    rw [op, axis_nat hk]
    rfl
  have sub : ∀ {a b : Nat}, a ≤ b → (b : Int) - a = ((b - a : Nat) : Int) := by
    intro a b hab
    omega
  have pt : ∀ k r z : Nat, k < n → p.r0 ≤ r → r < p.r1 → p.z0 ≤ z → z < p.z1 →
      dotRec f component ((r : Int) - p.r0) ((z : Int) - p.z0) p k = some (G k r z) := by
    intro k r z hk r0 r1 z0 z1
    unfold dotRec
    rw [at_ k hk, Option.bind_some, sub r0, sub z0]
    dsimp only
    rw [axis_nat (by omega), axis_nat (by omega), Option.bind_some, Option.map_some, hc k _ _ hk (by omega) (by omega)]
    congr 2 <;> omega
  refine ⟨fun k hk => ⟨_, at_ k hk, ⟨rfl, rfl⟩, fun a b ha hb => hc k a b hk ha hb⟩, fun k hk => ?_, fun i hi => ?_, fun k z hk z0 z1 => ?_,
    fun k r hk r0 r1 => ?_, pt, fun a b hab hb => ?_, fun a b r z hab hb r0 r1 z0 z1 => ?_⟩
  · rw [op, op, axis_end hk, axis_nat hk]
  · rw [op]
    rcases hi with hi | hi
    · rw [axis_big hi]
      rfl
    · rw [axis_small hi]
      rfl
  · unfold colRec
    rw [at_ k hk, Option.bind_some, sub z0]
    dsimp only
    rw [axis_nat (by omega)]
    refine ⟨_, rfl, rfl, fun r r0 r1 => ?_⟩
    dsimp only
    rw [hc k _ _ hk (by omega) (by omega)]
    congr 1 <;> omega
  · unfold rowRec
    rw [at_ k hk, Option.bind_some, sub r0]
    dsimp only
    rw [axis_nat (by omega)]
    refine ⟨_, rfl, rfl, fun z z0 z1 => ?_⟩
    dsimp only
    rw [hc k _ _ hk (by omega) (by omega)]
    congr 1 <;> omega
  · have fits : ∀ i ∈ ints a b, (rec f component p i).bind (fit (p.r1 - p.r0) (p.z1 - p.z0)) =
        some (⟨p.r1 - p.r0, p.z1 - p.z0, fun x y => c i.toNat (if p.r1 - p.r0 = 1 then 0 else x) (if p.z1 - p.z0 = 1 then 0 else y)⟩ : Mat) := by
      intro i hi
      have hi' := mem_ints.1 hi
      obtain ⟨k, rfl⟩ : ∃ k : Nat, i = k := ⟨i.toNat, by omega⟩
      rw [at_ k (by omega), Option.bind_some]
      unfold fit
      rw [if_pos ⟨Or.inl rfl, Or.inl rfl⟩]
      simp
    have s1 : size ((b : Int) - a) = some (b - a) := by
      unfold size
      rw [sub hab, if_pos (by omega)]
      simp
    have s2 : size ((p.r1 : Int) - p.r0) = some (p.r1 - p.r0) := by
      unfold size
      rw [sub hr.le, if_pos (by omega)]
      simp
    have s3 : size ((p.z1 : Int) - p.z0) = some (p.z1 - p.z0) := by
      unfold size
      rw [sub hz.le, if_pos (by omega)]
      simp
    refine ⟨(ints a b).map fun i => ⟨p.r1 - p.r0, p.z1 - p.z0, fun x y => c i.toNat (if p.r1 - p.r0 = 1 then 0 else x) (if p.z1 - p.z0 = 1 then 0 else y)⟩,
      ?_, ?_, ?_⟩
    · unfold recRange
      simp only [Option.elim, Option.bind_some, s1, s2, s3]
      exact collect_total fits
    · rw [ints_nat hab]
      simp
    · intro i m hm
      rw [ints_nat hab] at hm
      simp only [List.map_map, List.getElem?_map, Option.map_eq_some_iff] at hm
      obtain ⟨k, hk, rfl⟩ := hm
      obtain ⟨hk1, rfl⟩ := List.getElem?_eq_some_iff.1 hk
      simp only [List.getElem_range, List.length_range] at hk1 ⊢
      refine ⟨⟨rfl, rfl⟩, fun x y hx hy => ?_⟩
      simp only [Function.comp, Int.toNat_natCast]
      rw [hc _ _ _ (by omega) (by split <;> omega) (by split <;> omega)]
      congr 1 <;> split <;> omega
  · unfold dotRecRange
    have s1 : size ((b : Int) - a) = some (b - a) := by
      unfold size
      rw [sub hab, if_pos (by omega)]
      simp
    simp only [Option.bind_some, s1]
    rw [collect_total (g := fun i => G i.toNat r z)]
    · rw [ints_nat hab, List.map_map]
      simp only [Function.comp_def, Int.toNat_natCast]
    · intro i hi
      have hi' := mem_ints.1 hi
      obtain ⟨k, rfl⟩ : ∃ k : Nat, i = k := ⟨i.toNat, by omega⟩
      rw [pt k r z (by omega) r0 r1 z0 z1]
      simp

/-- The datasets of the probes can all be created (C45). -/
def Created (O : OEnv) : Prop := ∃ g, createAll ((List.range O.count).map (setPath O)) = .ok g

theorem created_nodup {l : List (List Char)} {g g' : List (List Char)} (h : loop (fun p g => createDataset g p) l g = .ok g') :
    l.Nodup ∧ (∀ p ∈ l, groupOf p ∉ g) := by
  induction l generalizing g with
  | nil => exact ⟨List.nodup_nil, by simp⟩
  | cons p l ih =>
    rw [loop_cons] at h
    unfold createDataset at h
    by_cases c : groupOf p ∈ g
    · rw [if_pos c] at h
      cases h
    · rw [if_neg c, Res.ok_bind] at h
      obtain ⟨i1, i2⟩ := ih h
      refine ⟨List.nodup_cons.2 ⟨fun hp => i2 p hp (List.mem_cons_self ..), i1⟩, ?_⟩
      intro q hq
      rcases List.mem_cons.1 hq with rfl | hq
      · exact c
      · exact fun hg => i2 q hq (List.mem_cons_of_mem _ hg)

theorem created_inj {O : OEnv} (h : Created O) {k l : Nat} (hk : k < O.count) (hl : l < O.count) (e : setPath O k = setPath O l) : k = l := by
  obtain ⟨g, h⟩ := h
  have nd := (created_nodup h).1
  have := (List.nodup_iff_injective_get.1 nd) (a₁ := ⟨k, by simpa using hk⟩) (a₂ := ⟨l, by simpa using hl⟩) (by simpa using e)
  simpa using this

theorem file_set {O : OEnv} (h : Created O) (F : Files) {k : Nat} (hk : k < O.count) :
    fileOf O F (readerRec (readerComponent (O.probes k).component (O.probes k).specie) (O.probes k).rect) =
      some (.set (F.sets k).rows ((O.probes k).rect.r1 - (O.probes k).rect.r0) ((O.probes k).rect.z1 - (O.probes k).rect.z0)
        fun f a b => (((F.sets k).frame f).cell a b).getD 0) := by
  rw [(C46_reader_partial _ _ _ 0 0).1]
  have e : (List.range O.count).find? (fun l => decide (setPath O l = path (O.probes k).component (O.probes k).specie (.rect (O.probes k).rect))) = some k := by
    cases e : (List.range O.count).find? (fun l => decide (setPath O l = path (O.probes k).component (O.probes k).specie (.rect (O.probes k).rect))) with
    | none =>
      have := List.find?_eq_none.1 e k (List.mem_range.2 hk)
      exact absurd (decide_eq_true (rfl : setPath O k = _)) this
    | some l =>
      have h1 := List.find?_some e
      have h2 := List.mem_of_find?_eq_some e
      rw [created_inj h (List.mem_range.1 h2) hk (of_decide_eq_true h1)]
  unfold fileOf
  simp only [e]

theorem shows_answers {O : OEnv} (hcr : Created O) {F : Files} {k : Nat} (hk : k < O.count) {G : Nat → Nat → Nat → ℝ}
    (hf : (O.probes k).Fits O.E) (h : ∀ f, f < (F.sets k).rows → ShowsFrame (O.probes k).rect ((F.sets k).frame f) (G f)) :
    Answers (fileOf O F) (readerComponent (O.probes k).component (O.probes k).specie) (O.probes k).rect (F.sets k).rows G := by
  refine answers hf.rows.1 hf.cols.1 (file_set hcr F hk) fun f a b hf' ha hb => ?_
  rw [(h f hf').2 a b, if_pos ⟨ha, hb⟩]
  rfl

theorem field_name {n : String} {c : Yee.Comp} (h : (n, c) ∈ fieldNames) (s : List Char) : readerComponent n.toList s = n.toList := by
  have key : ∀ x ∈ fieldNames, x.1.toList ∉ specieBased := by decide +kernel
  have h' : n.toList ∉ specieBased := key _ h
  unfold readerComponent
  rw [if_neg h']

/-- **C119** (partial: what C111 needs, and the datasets of the probes can be created).  Fields and currents after any run of at least one step:
the library answers with the values at the steps of the frames. -/
theorem C119_fields_partial {O : OEnv} (h : O.Watched) (hcr : Created O) (hist : Nat → State) {F0 : Files} (h0 : F0.Start O) (N : Nat) (hN0 : 0 < N)
    (hN : N ≤ 2 ^ 31) (hh : ∀ n, n < N → Held O.E (hist (n + 1))) :
    ∃ F, record O hist F0 N = .ok (N * O.E.p.dt, F) ∧ ∀ k n c, k < O.count → (n, c) ∈ fieldNames → (O.probes k).component = n.toList →
      Answers (fileOf O F) n.toList (O.probes k).rect (frames (O.probes k).schedule N)
        fun f X Y => glue O.E (hist (f * (O.probes k).schedule + 1)).M c X Y := by
  obtain ⟨F, e, fin⟩ := C111_fields_partial h hist h0 N hN hh
  refine ⟨F, e, fun k n c hk hn hp => ?_⟩
  obtain ⟨rows, sh, -⟩ := fin k n c hk hn hp
  have pos : 1 ≤ frames (O.probes k).schedule N := by
    have ev := (h.probes k hk).every.1
    unfold frames
    rw [Nat.le_div_iff_mul_le (by omega)]
    omega
  have rows' : (F.sets k).rows = frames (O.probes k).schedule N := by omega
  have := shows_answers (F := F) (G := fun f X Y => glue O.E (hist (f * (O.probes k).schedule + 1)).M c X Y) hcr hk (h.probes k hk)
    (fun f hf => sh f (by omega))
  rw [hp, field_name hn, rows'] at this
  exact this

theorem map_name {n : String} {V : Maps.Par → Geom ℝ → List Maps.VP → Int → Int → ℝ} (h : (n, V) ∈ mapNames) (s : List Char) :
    readerComponent n.toList s = n.toList ++ ['/'] ++ s := by
  have h' : n ∈ mapNames.map Prod.fst := List.mem_map.2 ⟨_, h, rfl⟩
  have e : mapNames.map Prod.fst = ["density", "energy", "momentum/r", "momentum/phi", "momentum/z"] := rfl
  rw [e] at h'
  have key : ∀ x ∈ ["density", "energy", "momentum/r", "momentum/phi", "momentum/z"], x.toList ∈ specieBased := by decide +kernel
  unfold readerComponent
  rw [if_pos (key _ h')]

section
open Config PicConf
variable {b : Build} {a : Algos} (hb : Selects b a) {j : Json ℝ} {c : Conf ℝ} {at_ : List (String × Attr ℝ)}
  (hr : start (checks light freqConst debyeConst) b j = .ok (c, at_))
  (hm : ∀ ms, Limits.check light freqConst debyeConst (limitsOf c) = .ok ms → Limits.Msg.timeStep ∉ ms)
  (hu : Usable c) {x : Random} (hx : x.Fair) (hc : ∀ s ∈ (setup a c x).species, (setup a c x).Cold s) (hk : Pusher.Relativistic a.pusher)
include hb hr hm hu hx hc hk

/-- **C119** (partial: the runs of `C117_run_partial`, a file the library can open, datasets that can be created).  From the configuration file to the
plot: the library opens the file of the run, lists its probes, and for every probe it lists answers with the field, current or map of the
species after the steps of the frames. -/
theorem C119_conf_partial (h1 : c.geo.domR = 1) (h2 : c.geo.domZ = 1)
    (hh : light * c.time.step ≤ c.geo.cellR / 2 ∧ light * c.time.step ≤ c.geo.cellZ / 2)
    (nb : c.beams = []) (hn : c.geo.nr < 2 ^ 15 ∧ c.geo.nz < 2 ^ 15) (hp : ∀ p ∈ c.probes, Served c p) (he : 0 ≤ c.time.stop)
    (hN : ⌊c.time.stop / c.time.step⌋ + 1 ≤ 2 ^ 31) {S : State} (st : Starts (setup a c x) S) {F0 : Files} (h0 : F0.Start (oenv a c))
    (hj : Complete j) (hcr : Created (oenv a c)) (dir : List Char) :
    ∃ hist : Nat → State, (∀ n T, Run (env a c) S n T ↔ T = hist n) ∧
      ∃ u F m, Out.MainLoop (c.time, 0) u ∧ record (oenv a c) hist F0 u.2 = .ok (u.1.current, F) ∧ openFile at_ dir = some m ∧
        m.probes.length = c.probes.length ∧ ∀ (k : Nat) p t, c.probes[k]? = some p → m.probes[k]? = some t →
          t.component = .str p.component ∧
          ∃ frames : Nat, (frames : Int) = ⌊c.time.stop / c.time.step⌋ / p.schedule + 1 ∧
          (∀ n f, (n, f) ∈ fieldNames → p.component = n.toList →
            Answers (fileOf (oenv a c) F) p.component p.dims frames fun m X Y => (hist (m * p.schedule + 1)).M 0 0 f X Y) ∧
          ∀ n V (i : Nat) s, (n, V) ∈ mapNames → p.component = n.toList → c.species[i]? = some s → s.name = p.specie →
            Answers (fileOf (oenv a c) F) (p.component ++ ['/'] ++ p.specie) p.dims frames
              fun m X Y => V ⟨pi, light, limit, elCharge, s.mass * elMass⟩ ⟨c.geo.cellR, c.geo.cellZ, 0, 0, c.geo.nr, c.geo.nz⟩
                (particlesOf (env a c) (hist (m * p.schedule + 1)) i) X Y := by
  obtain ⟨hs, -, -, -⟩ := (C115_start _ b _ _ _ _ hb.spatial hb.speedy hb.pusher hb.deposition hb.yee j c at_).1 hr
  have w : (oenv a c).Watched := watched hs hu hn hp
  obtain ⟨hist, run, -, u, F, m1, m2, rec', fr⟩ := C117_run_partial hb hr hm hu hx hc hk h1 h2 hh nb hn hp he hN st h0
  obtain ⟨m, om, sh⟩ := C116_shows_partial _ b _ _ _ _ hb.spatial hb.speedy hb.pusher hb.deposition hb.yee j c at_ hr dir hj
  refine ⟨hist, run, u, F, m, m1, rec', om, sh.probes.length_eq.symm, fun k p t hkp hkt => ?_⟩
  obtain ⟨hk1, rfl⟩ := List.getElem?_eq_some_iff.1 hkp
  obtain ⟨hk2, rfl⟩ := List.getElem?_eq_some_iff.1 hkt
  have e : (oenv a c).probes k = oprobe c.probes[k] := by
    show (c.probes[k]?.map oprobe).getD _ = _
    rw [List.getElem?_eq_getElem hk1]
    rfl
  have fit := w.probes k hk1
  obtain ⟨f1, f2⟩ := fr k _ hkp
  have e1 : ((oenv a c).probes k).component = c.probes[k].component := by rw [e]; rfl
  have e2 : ((oenv a c).probes k).specie = c.probes[k].specie := by rw [e]; rfl
  have e3 : ((oenv a c).probes k).rect = c.probes[k].dims := by rw [e]; rfl
  have fl : 0 ≤ ⌊c.time.stop / c.time.step⌋ := Int.floor_nonneg.mpr (div_nonneg he hu.step.le)
  obtain ⟨nf, enf⟩ : ∃ nf : Nat, (nf : Int) = ⌊c.time.stop / c.time.step⌋ / c.probes[k].schedule + 1 :=
    ⟨(⌊c.time.stop / c.time.step⌋ / c.probes[k].schedule + 1).toNat, Int.toNat_of_nonneg (by
      have := Int.ediv_nonneg fl (Int.natCast_nonneg c.probes[k].schedule)
      omega)⟩
  refine ⟨(sh.probes.get hk1 hk2).component, nf, enf, fun n f hf hpn => ?_, fun n V i s hV hpn hi hsn => ?_⟩
  · obtain ⟨r, v⟩ := f1 n f hf hpn
    have rows : (F.sets k).rows = nf := by
      have := r.trans enf.symm
      exact_mod_cast this
    have := shows_answers (F := F) (G := fun m X Y => (hist (m * c.probes[k].schedule + 1)).M 0 0 f X Y) hcr hk1 fit
      (fun m hm => by rw [e3]; exact v m hm)
    rw [e1, hpn, field_name hf, e3, rows] at this
    rw [hpn]
    exact this
  · obtain ⟨r, v⟩ := f2 n V i s hV hpn hi hsn
    have rows : (F.sets k).rows = nf := by
      have := r.trans enf.symm
      exact_mod_cast this
    have := shows_answers (F := F) (G := fun m X Y => V ⟨pi, light, limit, elCharge, s.mass * elMass⟩ ⟨c.geo.cellR, c.geo.cellZ, 0, 0, c.geo.nr, c.geo.nz⟩
                (particlesOf (env a c) (hist (m * c.probes[k].schedule + 1)) i) X Y) hcr hk1 fit
      (fun m hm => by rw [e3]; exact v m hm)
    rw [e1, e2, hpn, map_name hV, e3, rows] at this
    rw [hpn]
    exact this

end

/-- **C119**, what was not recorded is not found: no probe with this component (of this species) and exactly this rectangle. -/
theorem C119_unrecorded (O : OEnv) (F : Files) (c s : List Char) (p : Rect) (hc : c ∈ fieldBased ++ specieBased)
    (hk : ∀ k, k < O.count → (O.probes k).component ∈ fieldBased ++ specieBased)
    (h : ∀ k, k < O.count → (O.probes k).component = c → (O.probes k).rect = p → c ∈ specieBased ∧ (O.probes k).specie ≠ s) (i : Int) :
    rec (fileOf O F) (readerComponent c s) p i = none := by
  unfold rec
  rw [(C46_reader_partial _ _ _ 0 0).1]
  have e : (List.range O.count).find? (fun l => decide (setPath O l = path c s (.rect p))) = none := by
    refine List.find?_eq_none.2 fun k hkm => ?_
    have hk' := List.mem_range.1 hkm
    intro e
    obtain ⟨e1, e2, e3⟩ := C73_paths_distinct _ _ _ _ _ _ (hk k hk') hc (of_decide_eq_true e)
    obtain ⟨h1, h2⟩ := h k hk' e1 (by injection e2)
    exact h2 (e3 (e1 ▸ h1))
  unfold opened fileOf
  simp only [e]
  split_ifs <;> rfl

/-- No dataset of a run has a last part of a path without a hyphen. -/
theorem no_set (O : OEnv) (x t : List Char) (h1 : '/' ∉ t) (h2 : '-' ∉ t) (k : Nat) : setPath O k ≠ x ++ '/' :: t := by
  intro e
  unfold setPath path at e
  rw [pathTail_eq, ← List.append_assoc] at e
  obtain ⟨-, e⟩ := cut_last (numbers_clean _).1 h1 e
  rw [← e] at h2
  simp [shapeNumbers] at h2

theorem not_opened (O : OEnv) (F : Files) (x t : List Char) (h1 : '/' ∉ t) (h2 : '-' ∉ t) (i : Int) : opened (fileOf O F) ('/' :: (x ++ '/' :: t)) i = none := by
  have e : (List.range O.count).find? (fun l => decide (setPath O l = x ++ '/' :: t)) = none := by
    refine List.find?_eq_none.2 fun k hkm => ?_
    intro e
    exact no_set O x t h1 h2 k (of_decide_eq_true e)
  unfold opened fileOf
  simp only [e]
  split_ifs <;> rfl

/-- **C119**, refuted: columns, rows and points asked for directly are never found, nor are ranges of them; and what a range of columns gives,
if anything, is rows of zeros. -/
theorem C119_direct_fails (O : OEnv) (F : Files) (component : List Char) (r z : Nat) (i : Int) :
    col (fileOf O F) component z i = none ∧ row (fileOf O F) component r i = none ∧ dot (fileOf O F) component r z i = none ∧
    (∀ (m : Meta ℝ) (start stop : Int), start < stop → colRange (fileOf O F) m component z start (some stop) = none ∧
      rowRange (fileOf O F) m component r start (some stop) = none ∧ dotRange (fileOf O F) component r z start (some stop) = none) ∧
    ∀ (m : Meta ℝ) (start : Int) stop l, colRange (fileOf O F) m component z start stop = some l → ∀ v ∈ l, ∀ a, v.cell a = 0 := by
  have c1 : ∀ i, col (fileOf O F) component z i = none := by
    intro i
    unfold col
    split_ifs
    · rfl
    · have := not_opened O F (component ++ ['/', 'c', 'o', 'l']) (dec 0) (not_mem_dec 0).1 (not_mem_dec 0).2.1 i
      rw [← this]
      unfold readerCol readerPath
      have h1 : ¬ (['c', 'o', 'l'] = ['r', 'e', 'c']) := by decide
      simp only [h1, if_false, if_true]
      congr 1
      simp
  have c2 : ∀ i, row (fileOf O F) component r i = none := by
    intro i
    unfold row
    split_ifs
    · rfl
    · have := not_opened O F (component ++ ['/', 'r', 'o', 'w']) (dec 0) (not_mem_dec 0).1 (not_mem_dec 0).2.1 i
      rw [← this]
      unfold readerRow readerPath
      have h1 : ¬ (['r', 'o', 'w'] = ['r', 'e', 'c']) := by decide
      have h2 : ¬ (['r', 'o', 'w'] = ['c', 'o', 'l']) := by decide
      simp only [h1, h2, if_false, if_true]
      congr 1
      simp
  have c3 : ∀ i, dot (fileOf O F) component r z i = none := by
    intro i
    unfold dot
    split_ifs
    · rfl
    · have := not_opened O F (component ++ ['/', 'd', 'o', 't']) (dec r ++ '_' :: dec z)
        (by simp [not_mem_dec]) (by simp [not_mem_dec]) i
      rw [← this]
      unfold readerDot readerPath
      have h1 : ¬ (['d', 'o', 't'] = ['r', 'e', 'c']) := by decide
      have h2 : ¬ (['d', 'o', 't'] = ['c', 'o', 'l']) := by decide
      have h3 : ¬ (['d', 'o', 't'] = ['r', 'o', 'w']) := by decide
      simp only [h1, h2, h3, if_false]
      congr 1
      simp
  refine ⟨c1 i, c2 i, c3 i, fun m start stop hs => ⟨?_, ?_, ?_⟩, ?_⟩
  · unfold colRange
    simp only [Option.elim, Option.bind_some]
    have : size (start - stop) = none := by
      unfold size
      rw [if_neg (by omega)]
    cases whole m.gridR <;> simp [this]
  · unfold rowRange
    simp only [Option.elim, Option.bind_some]
    cases whole m.gridZ with
    | none => rfl
    | some L =>
      rw [Option.bind_some]
      cases size (stop - start) with
      | none => rfl
      | some n =>
        rw [Option.bind_some]
        exact collect_none (mem_ints.2 ⟨le_rfl, hs⟩) (by rw [c2]; rfl)
  · unfold dotRange
    simp only [Option.elim, Option.bind_some]
    cases size (stop - start) with
    | none => rfl
    | some n =>
      rw [Option.bind_some]
      exact collect_none (mem_ints.2 ⟨le_rfl, hs⟩) (by rw [c3]; rfl)
  · intro m start stop l hl v hv x
    unfold colRange at hl
    obtain ⟨stop', -, hl⟩ := Option.bind_eq_some_iff.1 hl
    obtain ⟨L, -, hl⟩ := Option.bind_eq_some_iff.1 hl
    obtain ⟨n, -, hl⟩ := Option.bind_eq_some_iff.1 hl
    split_ifs at hl
    cases hl
    obtain rfl := List.eq_of_mem_replicate hv
    rfl

/-- **C119**, refuted: without an end, no range of frames, columns, rows or points of a recorded rectangle is returned. -/
theorem C119_open_end_fails {O : OEnv} (hcr : Created O) (F : Files) {k : Nat} (hk : k < O.count) (m : Meta ℝ) (component : List Char)
    (hc : component = readerComponent (O.probes k).component (O.probes k).specie) (r z start : Int) :
    recRange (fileOf O F) component (O.probes k).rect start none = none ∧
    colRecRange (fileOf O F) m component z (O.probes k).rect start none = none ∧
    rowRecRange (fileOf O F) m component r (O.probes k).rect start none = none ∧
    dotRecRange (fileOf O F) component r z (O.probes k).rect start none = none := by
  refine ⟨?_, rfl, rfl, rfl⟩
  unfold recRange dsRange
  have := file_set hcr F hk
  unfold readerRec at this
  rw [hc]
  simp only [Option.elim, this, Option.bind_none]

/-- **C119** (partial: the rectangle reaches over all rows of the chamber).  Ranges of columns. -/
theorem C119_columns_partial {f : File} {component : List Char} {p : Rect} {n : Nat} {G : Nat → Nat → Nat → ℝ} (h : Answers f component p n G)
    (m : Meta ℝ) {g : Nat} (hg : m.gridR = .num (g : ℝ)) (h0 : p.r0 = 0) (h1 : p.r1 = g) (a b z : Nat) (hab : a ≤ b) (hb : b ≤ n)
    (z0 : p.z0 ≤ z) (z1 : z < p.z1) :
    ∃ l, colRecRange f m component ((z : Int) - p.z0) p a (some b) = some l ∧ l.length = b - a ∧
      ∀ (i : Nat) v, l[i]? = some v → v.len = g ∧ ∀ r, r < g → v.cell r = G (a + i) r z := by
  have wh : whole m.gridR = some g := by
    rw [hg]
    unfold whole asNum size
    simp
  have s1 : size ((b : Int) - a) = some (b - a) := by
    unfold size
    rw [if_pos (by omega)]
    congr 1
    omega
  choose! v hv hl hG using fun k (hk : k < n) => h.column k z hk z0 z1
  have fits : ∀ i ∈ ints a b, (colRec f component ((z : Int) - p.z0) p i).bind (fitVec g) =
      some (⟨g, fun x => (v i.toNat).cell (if (v i.toNat).len = 1 then 0 else x)⟩ : Vec) := by
    intro i hi
    have hi' := mem_ints.1 hi
    obtain ⟨k, rfl⟩ : ∃ k : Nat, i = k := ⟨i.toNat, by omega⟩
    rw [hv k (by omega), Option.bind_some]
    unfold fitVec
    rw [if_pos (Or.inl (by rw [hl k (by omega)]; omega))]
    simp
  refine ⟨(ints a b).map fun i => ⟨g, fun x => (v i.toNat).cell (if (v i.toNat).len = 1 then 0 else x)⟩, ?_, ?_, ?_⟩
  · unfold colRecRange
    simp only [Option.bind_some, wh, s1]
    exact collect_total fits
  · rw [ints_nat hab]
    simp
  · intro i w hw
    rw [ints_nat hab] at hw
    simp only [List.map_map, List.getElem?_map, Option.map_eq_some_iff] at hw
    obtain ⟨k, hk, rfl⟩ := hw
    obtain ⟨hk1, rfl⟩ := List.getElem?_eq_some_iff.1 hk
    simp only [List.getElem_range, List.length_range] at hk1 ⊢
    refine ⟨rfl, fun r hr => ?_⟩
    simp only [Function.comp, Int.toNat_natCast]
    have e := hG (a + i) (by omega) r (by omega) (by omega)
    rw [h0, Nat.sub_zero] at e
    have l1 := hl (a + i) (by omega)
    split
    · rw [← e]
      congr 1
      omega
    · exact e

/-- **C119** (partial: the rectangle reaches over all columns of the chamber).  Ranges of rows. -/
theorem C119_rows_partial {f : File} {component : List Char} {p : Rect} {n : Nat} {G : Nat → Nat → Nat → ℝ} (h : Answers f component p n G)
    (m : Meta ℝ) {g : Nat} (hg : m.gridZ = .num (g : ℝ)) (h0 : p.z0 = 0) (h1 : p.z1 = g) (a b r : Nat) (hab : a ≤ b) (hb : b ≤ n)
    (r0 : p.r0 ≤ r) (r1 : r < p.r1) :
    ∃ l, rowRecRange f m component ((r : Int) - p.r0) p a (some b) = some l ∧ l.length = b - a ∧
      ∀ (i : Nat) v, l[i]? = some v → v.len = g ∧ ∀ z, z < g → v.cell z = G (a + i) r z := by
  have wh : whole m.gridZ = some g := by
    rw [hg]
    unfold whole asNum size
    simp
  have s1 : size ((b : Int) - a) = some (b - a) := by
    unfold size
    rw [if_pos (by omega)]
    congr 1
    omega
  choose! v hv hl hG using fun k (hk : k < n) => h.row k r hk r0 r1
  have fits : ∀ i ∈ ints a b, (rowRec f component ((r : Int) - p.r0) p i).bind (fitVec g) =
      some (⟨g, fun x => (v i.toNat).cell (if (v i.toNat).len = 1 then 0 else x)⟩ : Vec) := by
    intro i hi
    have hi' := mem_ints.1 hi
    obtain ⟨k, rfl⟩ : ∃ k : Nat, i = k := ⟨i.toNat, by omega⟩
    rw [hv k (by omega), Option.bind_some]
    unfold fitVec
    rw [if_pos (Or.inl (by rw [hl k (by omega)]; omega))]
    simp
  refine ⟨(ints a b).map fun i => ⟨g, fun x => (v i.toNat).cell (if (v i.toNat).len = 1 then 0 else x)⟩, ?_, ?_, ?_⟩
  · unfold rowRecRange
    simp only [Option.bind_some, wh, s1]
    exact collect_total fits
  · rw [ints_nat hab]
    simp
  · intro i w hw
    rw [ints_nat hab] at hw
    simp only [List.map_map, List.getElem?_map, Option.map_eq_some_iff] at hw
    obtain ⟨k, hk, rfl⟩ := hw
    obtain ⟨hk1, rfl⟩ := List.getElem?_eq_some_iff.1 hk
    simp only [List.getElem_range, List.length_range] at hk1 ⊢
    refine ⟨rfl, fun z hz => ?_⟩
    simp only [Function.comp, Int.toNat_natCast]
    have e := hG (a + i) (by omega) z (by omega) (by omega)
    rw [h0, Nat.sub_zero] at e
    have l1 := hl (a + i) (by omega)
    split
    · rw [← e]
      congr 1
      omega
    · exact e

/-- **C119**, refuted: ranges of columns of other rectangles are not returned; those of a rectangle of one row show its value in all rows of
the chamber. -/
theorem C119_columns_fails {f : File} {component : List Char} {p : Rect} {n : Nat} {G : Nat → Nat → Nat → ℝ} (h : Answers f component p n G)
    (m : Meta ℝ) {g : Nat} (hg : m.gridR = .num (g : ℝ)) (a b z : Nat) (hab : a < b) (hb : b ≤ n) (z0 : p.z0 ≤ z) (z1 : z < p.z1) :
    (p.r1 - p.r0 ≠ 1 → p.r1 - p.r0 ≠ g → colRecRange f m component ((z : Int) - p.z0) p a (some b) = none) ∧
    (p.r1 = p.r0 + 1 → ∃ l, colRecRange f m component ((z : Int) - p.z0) p a (some b) = some l ∧ l.length = b - a ∧
      ∀ (i : Nat) v, l[i]? = some v → v.len = g ∧ ∀ r, v.cell r = G (a + i) p.r0 z) := by
  have wh : whole m.gridR = some g := by
    rw [hg]
    unfold whole asNum size
    simp
  have s1 : size ((b : Int) - a) = some (b - a) := by
    unfold size
    rw [if_pos (by omega)]
    congr 1
    omega
  choose! v hv hl hG using fun k (hk : k < n) => h.column k z hk z0 z1
  constructor
  · intro e1 e2
    unfold colRecRange
    simp only [Option.bind_some, wh, s1]
    refine collect_none (a := (a : Int)) (mem_ints.2 ⟨le_rfl, by omega⟩) ?_
    rw [hv a (by omega), Option.bind_some]
    unfold fitVec
    rw [if_neg]
    rw [hl a (by omega)]
    rintro (h | h)
    · exact e2 h
    · exact e1 h
  · intro e1
    have fits : ∀ i ∈ ints a b, (colRec f component ((z : Int) - p.z0) p i).bind (fitVec g) = some (⟨g, fun x => (v i.toNat).cell 0⟩ : Vec) := by
      intro i hi
      have hi' := mem_ints.1 hi
      obtain ⟨k, rfl⟩ : ∃ k : Nat, i = k := ⟨i.toNat, by omega⟩
      have l1 : (v k).len = 1 := by
        rw [hl k (by omega)]
        omega
      rw [hv k (by omega), Option.bind_some]
      unfold fitVec
      rw [if_pos (Or.inr l1)]
      simp [l1]
    refine ⟨(ints a b).map fun i => ⟨g, fun x => (v i.toNat).cell 0⟩, ?_, ?_, ?_⟩
    · unfold colRecRange
      simp only [Option.bind_some, wh, s1]
      exact collect_total fits
    · rw [ints_nat hab.le]
      simp
    · intro i w hw
      rw [ints_nat hab.le] at hw
      simp only [List.map_map, List.getElem?_map, Option.map_eq_some_iff] at hw
      obtain ⟨k, hk, rfl⟩ := hw
      obtain ⟨hk1, rfl⟩ := List.getElem?_eq_some_iff.1 hk
      simp only [List.getElem_range, List.length_range] at hk1 ⊢
      refine ⟨rfl, fun r => ?_⟩
      simp only [Function.comp, Int.toNat_natCast]
      have e := hG (a + i) (by omega) p.r0 le_rfl (by omega)
      rw [Nat.sub_self] at e
      exact e

/-- **C119**, refuted: a point given by its row and column in the chamber, as `get_row_by_radius` and `get_col_by_longitude` return them and the
scripts in `tools/` ask for it, is the point of another cell if the rectangle does not start at the corner of the chamber, and is not found
in the last rows of the rectangle. -/
theorem C119_place_fails {f : File} {component : List Char} {p : Rect} {n : Nat} {G : Nat → Nat → Nat → ℝ} (h : Answers f component p n G) (k r z : Nat)
    (hk : k < n) (hz : p.z0 + z < p.z1) :
    (p.r0 + r < p.r1 → dotRec f component r z p k = some (G k (p.r0 + r) (p.z0 + z))) ∧
    (p.r1 ≤ p.r0 + r → dotRec f component r z p k = none) := by
  constructor
  · intro hr
    have := h.point k (p.r0 + r) (p.z0 + z) hk (by omega) hr (by omega) hz
    push_cast at this
    rw [add_sub_cancel_left, add_sub_cancel_left] at this
    exact this
  · intro hr
    obtain ⟨m, e, ⟨eh, ew⟩, -⟩ := h.frame k hk
    unfold dotRec
    rw [e, Option.bind_some, axis_big (by omega)]
    rfl

/-! ### Examples -/

section
open Config PicConf

theorem ex_created (m : Nat) : Created (oenv exAlgos (PicConf.exConf m)) :=
  ⟨[groupOf (setPath (oenv exAlgos (PicConf.exConf m)) 1), groupOf (setPath (oenv exAlgos (PicConf.exConf m)) 0)], by
    have e0 : setPath (oenv exAlgos (PicConf.exConf m)) 0 = path ['E', '/', 'r'] "unknown".toList (.rect ⟨0, 0, 4, 4⟩) := rfl
    have e1 : setPath (oenv exAlgos (PicConf.exConf m)) 1 = path ['d', 'e', 'n', 's', 'i', 't', 'y'] ['i', 'o', 'n', 's'] (.rect ⟨1, 0, 2, 4⟩) := rfl
    have e : (List.range (oenv exAlgos (PicConf.exConf m)).count).map (setPath (oenv exAlgos (PicConf.exConf m))) =
      [setPath (oenv exAlgos (PicConf.exConf m)) 0, setPath (oenv exAlgos (PicConf.exConf m)) 1] := rfl
    rw [e, e0, e1]
    decide +kernel⟩

theorem ex_complete : Complete (PicConf.exFile (2 : Nat)) := by
  refine ⟨⟨⟨_, rfl⟩, _, rfl⟩, ?_, ?_⟩
  · intro k hk
    simp only [List.mem_cons, List.not_mem_nil, or_false] at hk
    rcases hk with rfl | rfl | rfl | rfl | rfl <;> exact ⟨_, rfl⟩
  · intro p hp
    simp only [plotPaths, List.mem_cons, List.not_mem_nil, or_false] at hp
    rcases hp with rfl | rfl | rfl | rfl | rfl | rfl | rfl | rfl | rfl | rfl | rfl | rfl | rfl | rfl | rfl <;> exact ⟨_, rfl⟩

/-- The example of C117 meets the hypotheses that are new here: its file can be opened, its datasets can be created, its first probe shows all
rows of the chamber, its second only one. -/
example : ∃ at_ m, start (checks light freqConst debyeConst) PicConf.exBuild (PicConf.exFile (2 : Nat)) = .ok (PicConf.exConf 2, at_) ∧
    openFile at_ ['.'] = some m ∧ Shows (PicConf.exConf 2) m ∧ Created (oenv exAlgos (PicConf.exConf 2)) ∧
    ((oenv exAlgos (PicConf.exConf 2)).probes 0).rect = ⟨0, 0, 4, 4⟩ ∧ ((oenv exAlgos (PicConf.exConf 2)).probes 1).rect = ⟨1, 0, 2, 4⟩ := by
  obtain ⟨at_, hs⟩ := PicConf.ex_start 2 (by norm_num)
  obtain ⟨m, hm, sh⟩ := C116_shows_partial _ PicConf.exBuild .flat .thermal .vay .zigzag rfl rfl rfl rfl rfl _ _ at_ hs ['.'] ex_complete
  exact ⟨at_, m, hs, hm, sh, ex_created 2, rfl, rfl⟩

end

end DataReader
end Pico
