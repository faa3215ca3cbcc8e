import Verif.Spec.Progress
import Verif.Props.Output
import Verif.Lemmas.Dump

/-!
# C128 — the table of progress lists the recorded frames
-/

set_option linter.unusedVariables false

namespace Pico
namespace Out

variable {K : Type _} [Field K] [LinearOrder K] [IsStrictOrderedRing K] [FloorRing K]

theorem tabled_append (a b : List Row) (m : Nat) : tabled (a ++ b) m = tabled a m ++ tabled b (m + a.length) := by
  induction a generalizing m with
  | nil => rfl
  | cons r a ih =>
    simp only [List.cons_append, tabled, ih, List.append_assoc, List.length_cons]
    congr 3
    omega

theorem shape_eq : shapeName = shapeText := by
  funext n
  unfold shapeName shapeText
  match n with
  | 0 => rfl
  | 1 => rfl
  | 2 => rfl
  | 3 => rfl
  | n + 4 => simp

/-- One turn. -/
theorem pass_eq (step : K) (hs : 0 < step) (shown : K → List Char) (clock : Nat → List Char) (probes : List TProbe) (hp : ∀ p ∈ probes, 1 ≤ p.schedule)
    (n : Nat) (hn : n < 2 ^ 31) (c : Nat) (l : List Line) (hc : c + (due step shown clock probes n).length < 2 ^ 32) :
    loop (printProbe id step shown (clock n) ((n : K) * step)) probes ⟨c, l⟩ =
      .ok ⟨c + (due step shown clock probes n).length, l ++ tabled (due step shown clock probes n) c⟩ := by
  induction probes generalizing c l with
  | nil => simp [loop, due, tabled]
  | cons p ps ih =>
    have s0 := hp p (by simp)
    have ih := ih (fun q hq => hp q (by simp [hq]))
    by_cases d : p.schedule ∣ n
    · have e : n % p.schedule = 0 := Nat.mod_eq_zero_of_dvd d
      have hd : due step shown clock (p :: ps) n = ⟨n, n / p.schedule, p.path, shapeText p.shape, shown (n * step), clock n⟩ :: due step shown clock ps n := by
        unfold due
        rw [List.filterMap_cons, if_pos d, shape_eq]
      rw [hd, List.length_cons] at hc
      have q : printProbe id step shown (clock n) ((n : K) * step) p ⟨c, l⟩ = .ok ⟨c + 1, l ++ tabled [⟨n, n / p.schedule, p.path, shapeText p.shape, shown (n * step), clock n⟩] c⟩ := by
        unfold printProbe frame printValues printHeader
        rw [stepNo_exact step hs n hn, Res.ok_bind, if_neg (by omega), Res.ok_bind]
        simp only [Int.toNat_natCast, e, if_true]
        rw [Res.ok_bind, Nat.mod_eq_of_lt (show c + 1 < 2 ^ 32 by omega)]
        simp only [tabled]
        split_ifs <;> simp
      rw [loop, q, Res.ok_bind, ih _ _ (by omega), hd, List.append_assoc]
      have t := tabled_append [⟨n, n / p.schedule, p.path, shapeText p.shape, shown (n * step), clock n⟩] (due step shown clock ps n) c
      rw [List.singleton_append, List.length_singleton] at t
      rw [t, List.length_cons]
      congr 2
      omega
    · have e : ¬ n % p.schedule = 0 := fun e => d (Nat.dvd_of_mod_eq_zero e)
      have hd : due step shown clock (p :: ps) n = due step shown clock ps n := by
        unfold due
        rw [List.filterMap_cons, if_neg d]
      rw [hd] at hc ⊢
      have q : printProbe id step shown (clock n) ((n : K) * step) p ⟨c, l⟩ = .ok ⟨c, l⟩ := by
        unfold printProbe frame
        rw [stepNo_exact step hs n hn, Res.ok_bind, if_neg (by omega), Res.ok_bind]
        simp only [Int.toNat_natCast, e, if_false]
      rw [loop, q, Res.ok_bind]
      exact ih _ _ hc

/-- **C128.**  The table lists the frames that are due, turn by turn and in the order of the probes, with the number of the step, the number of the frame,
path and shape of the probe and the model time, and repeats its header after every thirty lines.  (Exact arithmetic of the clock, less than `2 ^ 31` turns
and `2 ^ 32` lines.) -/
theorem C128_rows (step : K) (hs : 0 < step) (shown : K → List Char) (clock : Nat → List Char) (probes : List TProbe) (hp : ∀ p ∈ probes, 1 ≤ p.schedule)
    (N : Nat) (hN : N ≤ 2 ^ 31) (hl : (dueAll step shown clock probes N).length < 2 ^ 32) :
    ∃ t, progress id step shown clock probes N = .ok ((N : K) * step, t) ∧ t.lines = tabled (dueAll step shown clock probes N) 0 := by
  suffices h : progress id step shown clock probes N = .ok ((N : K) * step,
      ⟨(dueAll step shown clock probes N).length, tabled (dueAll step shown clock probes N) 0⟩) from ⟨_, h, rfl⟩
  induction N with
  | zero => simp [progress, loop, dueAll, tabled]
  | succ N ih =>
    have e : dueAll step shown clock probes (N + 1) = dueAll step shown clock probes N ++ due step shown clock probes N := by
      unfold dueAll
      rw [List.range_succ, List.flatMap_append]
      simp
    rw [e, List.length_append] at hl
    have ih := ih (by omega) (by omega)
    unfold progress at ih ⊢
    rw [loop_range_succ, ih, Res.ok_bind, pass_eq step hs shown clock probes hp N (by omega) _ _ hl, Res.ok_bind, e, List.length_append, tabled_append]
    simp only [Nat.zero_add, id]
    congr 2
    push_cast
    ring

theorem tabled_lines (l : List Row) (m : Nat) : ((tabled l m).flatMap Line.text).length + 3 * ((m + 29) / 30) = l.length + 3 * ((m + l.length + 29) / 30) := by
  induction l generalizing m with
  | nil => simp [tabled]
  | cons r l ih =>
    have := ih (m + 1)
    unfold tabled
    rw [List.flatMap_append, List.length_append, List.length_cons]
    split_ifs with c
    · rw [show ([Line.header, .row r].flatMap Line.text).length = 4 from rfl]
      have e : m + (l.length + 1) + 29 = m + 1 + l.length + 29 := by omega
      rw [e]
      omega
    · rw [show ([Line.row r].flatMap Line.text).length = 1 from rfl]
      have e : m + (l.length + 1) + 29 = m + 1 + l.length + 29 := by omega
      rw [e]
      omega

/-- **C128, lines of output**: one line per frame, and three lines of header (two borders around the titles) for every thirty frames begun. -/
theorem C128_lines (step : K) (hs : 0 < step) (shown : K → List Char) (clock : Nat → List Char) (probes : List TProbe) (hp : ∀ p ∈ probes, 1 ≤ p.schedule)
    (N : Nat) (hN : N ≤ 2 ^ 31) (hl : (dueAll step shown clock probes N).length < 2 ^ 32) :
    ∃ t, progress id step shown clock probes N = .ok ((N : K) * step, t) ∧
      (t.lines.flatMap Line.text).length = (dueAll step shown clock probes N).length + 3 * (((dueAll step shown clock probes N).length + 29) / 30) := by
  obtain ⟨t, a, b⟩ := C128_rows step hs shown clock probes hp N hN hl
  refine ⟨t, a, ?_⟩
  rw [b]
  have := tabled_lines (dueAll step shown clock probes N) 0
  simpa using this

theorem mem_due {step : K} {shown : K → List Char} {clock : Nat → List Char} {probes : List TProbe} {n : Nat} {r : Row} :
    r ∈ due step shown clock probes n ↔
      ∃ p ∈ probes, p.schedule ∣ n ∧ r = ⟨n, n / p.schedule, p.path, shapeText p.shape, shown (n * step), clock n⟩ := by
  unfold due
  rw [List.mem_filterMap, shape_eq]
  constructor
  · rintro ⟨p, hp, e⟩
    split_ifs at e with c
    exact ⟨p, hp, c, (Option.some.inj e).symm⟩
  · rintro ⟨p, hp, c, rfl⟩
    exact ⟨p, hp, if_pos c⟩

theorem mem_tabled {r : Row} {l : List Row} {m : Nat} : .row r ∈ tabled l m ↔ r ∈ l := by
  induction l generalizing m with
  | nil => simp [tabled]
  | cons a l ih =>
    unfold tabled
    rw [List.mem_append, ih]
    split_ifs <;> simp

/-- **C128, table and file.**  A frame of a probe is written to the file by a domain that contributes to it if and only if the table has a line with this
step, this frame and the name of this probe.  (Schedules below 65536, see C42.) -/
theorem C128_file_partial (step : K) (hs : 0 < step) (shown : K → List Char) (clock : Nat → List Char) (probes : List TProbe) (hp : ∀ p ∈ probes, 1 ≤ p.schedule)
    (N : Nat) (hN : N ≤ 2 ^ 31) (hl : (dueAll step shown clock probes N).length < 2 ^ 32) (names : (probes.map TProbe.path).Nodup)
    (p : TProbe) (hm : p ∈ probes) (h2 : p.schedule < 65536) (doms d : Nat) (hd : d < doms) :
    ∃ t c ds, progress id step shown clock probes N = .ok ((N : K) * step, t) ∧ run id step p.schedule doms N = .ok (c, ds) ∧
      ∀ n k, (n, d, k) ∈ ds.log ↔ ∃ r, .row r ∈ t.lines ∧ r.path = p.path ∧ r.step = n ∧ r.frame = k := by
  obtain ⟨t, e1, e2⟩ := C128_rows step hs shown clock probes hp N hN hl
  obtain ⟨c, ds, e3, _, e4, _⟩ := C42_frames_partial step hs p.schedule doms N (hp p hm) h2 hN
  refine ⟨t, c, ds, e1, e3, fun n k => ?_⟩
  have s0 := hp p hm
  rw [e4]
  constructor
  · rintro ⟨h, _, rfl⟩
    refine ⟨⟨(k * p.schedule : Nat), k * p.schedule / p.schedule, p.path, shapeText p.shape, shown ((k * p.schedule : Nat) * step), clock (k * p.schedule)⟩, ?_, rfl, rfl,
      Nat.mul_div_cancel _ s0⟩
    rw [e2, mem_tabled]
    exact List.mem_flatMap.mpr ⟨_, List.mem_range.mpr h, mem_due.mpr ⟨p, hm, Dvd.intro_left _ rfl, rfl⟩⟩
  · rintro ⟨r, hr, hpath, rfl, rfl⟩
    rw [e2, mem_tabled] at hr
    obtain ⟨m, hm', hr⟩ := List.mem_flatMap.mp hr
    obtain ⟨q, hq, dv, rfl⟩ := mem_due.mp hr
    have : q = p := List.inj_on_of_nodup_map names hq hm hpath
    subst this
    simp only
    rw [Nat.div_mul_cancel dv]
    exact ⟨List.mem_range.mp hm', hd, rfl⟩

/-! ### Any rounding of the clock -/

theorem printProbe_mem {rnd : K → K} {step : K} {shown : K → List Char} {clock : List Char} {c : K} {n : Int} (hn : stepNo rnd c step = .ok n) {p : TProbe} {t t' : Table}
    (e : printProbe rnd step shown clock c p t = .ok t') (r : Row) :
    .row r ∈ t'.lines ↔ .row r ∈ t.lines ∨ (n.toNat % p.schedule = 0 ∧ r = ⟨n, n.toNat / p.schedule, p.path, shapeText p.shape, shown c, clock⟩) := by
  unfold printProbe frame printValues at e
  rw [hn, Res.ok_bind] at e
  split_ifs at e with h0 h1
  · exact (nomatch e)
  · rw [Res.ok_bind] at e
    simp only [Res.ok_bind] at e
    obtain rfl := Res.ok.inj e
    unfold printHeader
    dsimp only
    rw [List.mem_append]
    constructor
    · rintro (h | h)
      · left
        split_ifs at h
        · simpa using h
        · exact h
      · right
        simp only [List.mem_singleton, Line.row.injEq] at h
        exact ⟨h1, h⟩
    · rintro (h | ⟨_, h⟩)
      · left
        split_ifs
        · simpa using h
        · exact h
      · right
        rw [h]
        simp
  · rw [Res.ok_bind] at e
    obtain rfl := Res.ok.inj e
    constructor
    · exact .inl
    · rintro (h | h)
      · exact h
      · exact absurd h.1 h1

theorem printAll_mem {rnd : K → K} {step : K} {shown : K → List Char} {clock : List Char} {c : K} {n : Int} (hn : stepNo rnd c step = .ok n) {probes : List TProbe}
    {t t' : Table} (e : loop (printProbe rnd step shown clock c) probes t = .ok t') (r : Row) :
    .row r ∈ t'.lines ↔ .row r ∈ t.lines ∨ ∃ p ∈ probes, n.toNat % p.schedule = 0 ∧ r = ⟨n, n.toNat / p.schedule, p.path, shapeText p.shape, shown c, clock⟩ := by
  induction probes generalizing t with
  | nil =>
    obtain rfl := Res.ok.inj e
    simp
  | cons p ps ih =>
    rw [loop] at e
    obtain ⟨t1, e1, e2⟩ := Res.bind_ok e
    rw [ih e2, printProbe_mem hn e1, or_assoc]
    simp only [List.mem_cons, exists_eq_or_imp]

theorem output_mem {schedule doms : Nat} (h2 : schedule < 65536) {n : Int} {d d' : DS} (e : output schedule doms n d = .ok d') (x : Int × Nat × Nat) :
    x ∈ d'.log ↔ x ∈ d.log ∨ (n.toNat % schedule = 0 ∧ ∃ k, k < doms ∧ x = (n, k, n.toNat / schedule)) := by
  unfold output at e
  obtain ⟨d1, e1, e2⟩ := Res.bind_ok e
  have l1 : d1.log = d.log := by
    unfold initDataset at e1
    obtain ⟨o, _, e1⟩ := Res.bind_ok e1
    cases o with
    | none => rw [← Res.ok.inj e1]
    | some k =>
      rw [← Res.ok.inj e1]
      unfold DS.extend
      split_ifs <;> rfl
  rw [← l1]
  clear e1 l1 e
  have key : ∀ l : List Nat, ∀ d1, loop (writer schedule n) l d1 = .ok d' →
      (x ∈ d'.log ↔ x ∈ d1.log ∨ (n.toNat % schedule = 0 ∧ ∃ k ∈ l, x = (n, k, n.toNat / schedule))) := by
    intro l
    induction l with
    | nil =>
      intro d1 e
      obtain rfl := Res.ok.inj e
      simp
    | cons a l ih =>
      intro d1 e
      rw [loop] at e
      obtain ⟨d2, e1, e2⟩ := Res.bind_ok e
      rw [ih d2 e2]
      unfold writer frame DS.write at e1
      rw [Nat.mod_eq_of_lt (show schedule < 2 ^ 16 by omega)] at e1
      split_ifs at e1 with h0 h1
      · exact (nomatch e1)
      · rw [Res.ok_bind] at e1
        simp only at e1
        split_ifs at e1
        obtain rfl := Res.ok.inj e1
        simp only [List.mem_append, List.mem_singleton, List.mem_cons, exists_eq_or_imp, h1, true_and, or_assoc, List.not_mem_nil, false_or]
      · rw [Res.ok_bind] at e1
        obtain rfl := Res.ok.inj e1
        simp [h1]
  have := key (List.range doms) d1 e2
  simpa [List.mem_range] using this

/-- **C128, table and file agree always.**  However the clock is rounded (so even where rounding makes the program skip a frame or write one twice, C42): a frame of a
probe is written to the file by a contributing domain if and only if the table has a line with this step, this frame and the name of this probe. -/
theorem C128_agree_partial (rnd : K → K) (step : K) (shown : K → List Char) (clock : Nat → List Char) (probes : List TProbe)
    (names : (probes.map TProbe.path).Nodup) (p : TProbe) (hm : p ∈ probes) (h2 : p.schedule < 65536) (doms d : Nat) (hd : d < doms) (N : Nat) {c c' : K} {t : Table} {ds : DS}
    (e1 : progress rnd step shown clock probes N = .ok (c, t)) (e2 : run rnd step p.schedule doms N = .ok (c', ds)) :
    c = c' ∧ ∀ n k, (n, d, k) ∈ ds.log ↔ ∃ r, .row r ∈ t.lines ∧ r.path = p.path ∧ r.step = n ∧ r.frame = k := by
  induction N generalizing c c' t ds with
  | zero =>
    have e1 := Res.ok.inj e1
    have e2 := Res.ok.inj e2
    rw [Prod.mk.injEq] at e1 e2
    rw [← e1.1, ← e1.2, ← e2.1, ← e2.2]
    simp [DS.init]
  | succ N ih =>
    unfold progress at e1
    unfold run at e2
    rw [loop_range_succ] at e1 e2
    obtain ⟨⟨c0, t0⟩, a1, e1⟩ := Res.bind_ok e1
    obtain ⟨⟨c0', ds0⟩, a2, e2⟩ := Res.bind_ok e2
    obtain ⟨rfl, ih⟩ := ih a1 a2
    obtain ⟨t1, b1, e1⟩ := Res.bind_ok e1
    unfold turn at e2
    obtain ⟨n, b2, e2⟩ := Res.bind_ok e2
    obtain ⟨ds1, b3, e2⟩ := Res.bind_ok e2
    have e1 := Res.ok.inj e1
    have e2 := Res.ok.inj e2
    rw [Prod.mk.injEq] at e1 e2
    obtain ⟨rfl, rfl⟩ := e1
    obtain ⟨rfl, rfl⟩ := e2
    refine ⟨rfl, fun m k => ?_⟩
    rw [output_mem h2 b3, ih]
    constructor
    · rintro (⟨r, hr, h⟩ | ⟨h0, q, hq, h⟩)
      · exact ⟨r, (printAll_mem b2 b1 r).mpr (.inl hr), h⟩
      · rw [Prod.mk.injEq, Prod.mk.injEq] at h
        exact ⟨_, (printAll_mem b2 b1 _).mpr (.inr ⟨p, hm, h0, rfl⟩), rfl, h.1.symm, h.2.2.symm⟩
    · rintro ⟨r, hr, h⟩
      rcases (printAll_mem b2 b1 r).mp hr with g | ⟨q, hq, h0, rfl⟩
      · exact .inl ⟨r, g, h⟩
      · right
        obtain rfl : q = p := List.inj_on_of_nodup_map names hq hm h.1
        exact ⟨h0, d, hd, by rw [← h.2.1, ← h.2.2]⟩

/-- C128 fails for schedules from 65536 up that are no multiples of 65536: the run of the writers ends with an error (C42), while the table alone would go on. -/
theorem C128_short_fails (step : K) (hs : 0 < step) (shown : K → List Char) (clock : Nat → List Char) (p : TProbe) (hb : 65536 ≤ p.schedule)
    (h : p.schedule % 65536 ≠ 0) (N : Nat) (hN : N ≤ 2 ^ 31) (hn : p.schedule % 65536 < N) (hl : (dueAll step shown clock [p] N).length < 2 ^ 32) (doms : Nat) (hd : 0 < doms) :
    run id step p.schedule doms N = .fatal ∧ ∃ t, progress id step shown clock [p] N = .ok ((N : K) * step, t) :=
  ⟨C42_short_fails step hs p.schedule doms N hd hb h hn, by
    obtain ⟨t, e, _⟩ := C128_rows step hs shown clock [p] (by simp; omega) N hN hl
    exact ⟨t, e⟩⟩

/-! ### Columns -/

theorem padded_length {w : Nat} {s : List Char} (h : s.length ≤ w) : (padded w s).length = w := by
  unfold padded
  rw [List.length_append, List.length_replicate]
  omega

/-- **C128, columns.**  As long as the contents fit, the bars of all lines are below those of the header; contents that do not fit move the bars behind them,
but nothing is cut (the text contains all the contents). -/
theorem C128_columns (r : Row) (h1 : (Help.decimal r.step).length ≤ 11) (h2 : (Help.decimal r.frame).length ≤ 12) (h3 : r.path.length ≤ 48)
    (h4 : r.shape.length ≤ 6) (h5 : r.time.length ≤ 17) (h6 : r.duration.length ≤ 20) : Bars r.text ∧ Bars titles ∧ border.length = 127 := by
  refine ⟨?_, by unfold Bars; decide +kernel, by decide +kernel⟩
  have l1 : (padded 13 ('|' :: ' ' :: Help.decimal r.step)).length = 13 := padded_length (by simp; omega)
  have l2 : (padded 14 ('|' :: ' ' :: Help.decimal r.frame)).length = 14 := padded_length (by simp; omega)
  have l3 : (padded 50 ('|' :: ' ' :: r.path)).length = 50 := padded_length (by simp; omega)
  have l4 : (padded 8 ('|' :: ' ' :: r.shape)).length = 8 := padded_length (by simp; omega)
  have l5 : (padded 19 ('|' :: ' ' :: r.time)).length = 19 := padded_length (by simp; omega)
  have l6 : (padded 22 ('|' :: ' ' :: r.duration)).length = 22 := padded_length (by simp; omega)
  have z : ∀ w s (h : 0 < (padded w ('|' :: s)).length), (padded w ('|' :: s))[0] = '|' := fun w s _ => rfl
  unfold Row.text
  constructor
  · simp only [List.length_append, l1, l2, l3, l4, l5, l6, List.length_singleton]
  · intro k hk
    simp only [List.mem_cons, List.not_mem_nil, or_false] at hk
    rcases hk with rfl | rfl | rfl | rfl | rfl | rfl | rfl <;>
      simp [List.getElem?_append, l1, l2, l3, l4, l5, l6, z, List.length_append]

/-- Shape names always fit. -/
theorem shape_fits (n : Nat) : (shapeText n).length ≤ 6 := by
  unfold shapeText
  split_ifs <;> simp

/-- **C128, nothing is cut**: whatever the lengths, each line shows the number of the step, the number of the frame, the path, the shape, the time and the duration
in this order. -/
theorem C128_whole (r : Row) : ∃ b1 b2 b3 b4 b5 b6 : Nat, r.text =
    "| ".toList ++ Help.decimal r.step ++ List.replicate b1 ' ' ++ "| ".toList ++ Help.decimal r.frame ++ List.replicate b2 ' ' ++ "| ".toList ++ r.path ++ List.replicate b3 ' ' ++
      "| ".toList ++ r.shape ++ List.replicate b4 ' ' ++ "| ".toList ++ r.time ++ List.replicate b5 ' ' ++ "| ".toList ++ r.duration ++ List.replicate b6 ' ' ++ "|".toList := by
  refine ⟨11 - (Help.decimal r.step).length, 12 - (Help.decimal r.frame).length, 48 - r.path.length, 6 - r.shape.length,
    17 - r.time.length, 20 - r.duration.length, ?_⟩
  unfold Row.text padded
  simp [List.append_assoc]

/-- Two probes, every step and every second step; six turns. -/
example : ∃ t, progress id (1 / 2 : ℚ) (fun _ => ['t']) (fun _ => ['0', 's']) [⟨['a'], 0, 1⟩, ⟨['b'], 3, 2⟩] 3 = .ok (3 / 2, t) ∧
    t.lines = [.header, .row ⟨0, 0, ['a'], ['r', 'e', 'c'], ['t'], ['0', 's']⟩, .row ⟨0, 0, ['b'], ['d', 'o', 't'], ['t'], ['0', 's']⟩,
      .row ⟨1, 1, ['a'], ['r', 'e', 'c'], ['t'], ['0', 's']⟩, .row ⟨2, 2, ['a'], ['r', 'e', 'c'], ['t'], ['0', 's']⟩,
      .row ⟨2, 1, ['b'], ['d', 'o', 't'], ['t'], ['0', 's']⟩] := by
  obtain ⟨t, a, b⟩ := C128_rows (1 / 2 : ℚ) (by norm_num) (fun _ => ['t']) (fun _ => ['0', 's']) [⟨['a'], 0, 1⟩, ⟨['b'], 3, 2⟩] (by simp) 3 (by norm_num) (by decide +kernel)
  refine ⟨t, by rw [a]; norm_num, ?_⟩
  rw [b]
  decide +kernel

/-- With doubles, a step of one tenth and a frame per step the table misses step 3 and has step 4 twice, as the file does. -/
example : (match progress round64 tenth (fun _ => []) (fun _ => []) [⟨['a'], 0, 1⟩] 6, run round64 tenth 1 1 6 with
    | .ok (_, t), .ok (_, ds) => (t.lines.filterMap (fun l => match l with | .header => none | .row r => some r.step), ds.log.map Prod.fst)
    | _, _ => ([], [])) = ([0, 1, 2, 4, 4, 5], [0, 1, 2, 4, 4, 5]) := by
  decide +kernel

end Out
end Pico
