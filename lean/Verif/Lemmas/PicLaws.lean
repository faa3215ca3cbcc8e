import Verif.Lemmas.PicSame
import Verif.Lemmas.DumpMaps
import Verif.Spec.PicLaws
import Verif.Props.Pic
import Verif.Props.Fields

/-! The field laws in whole runs. -/

set_option linter.unusedSimpArgs false
set_option linter.unusedVariables false
set_option linter.unusedSectionVars false

namespace Pico
namespace Pic

open SMB Yee

/-! ### The deposition changes nothing but the currents, whatever the particles -/

/-- An operation on a current. -/
def OnJ : VB.Op ℝ → Prop
  | .inc c _ _ _ => isJ c
  | .set c _ _ _ => isJ c

theorem runOps_keeps (g : Geom ℝ) (ops : List (VB.Op ℝ)) (h : ∀ o ∈ ops, OnJ o) {m m' : Mem ℝ} (e : VB.runOps g ops m = .ok m')
    {c : Comp} (hc : ¬ isJ c) : ∀ x y, m' c x y = m c x y := by
  unfold VB.runOps at e
  refine loop_keeps (fun n : Mem ℝ => ∀ x y, n c x y = m c x y) _ ops ?_ m m' (fun _ _ => rfl) e
  intro o ho n n' hn en x y
  have hj := h o ho
  have ne : ∀ c', isJ c' → c ≠ c' := fun c' h' e => hc (e ▸ h')
  cases o with
  | inc c' a b w =>
    simp only [VB.runOp] at en
    split at en
    · obtain rfl := Res.ok.inj en
      unfold put
      rw [if_neg (fun k => ne c' hj k.1)]
      exact hn x y
    · exact (nomatch en)
  | set c' a b w =>
    simp only [VB.runOp] at en
    split at en
    · obtain rfl := Res.ok.inj en
      unfold put
      rw [if_neg (fun k => ne c' hj k.1)]
      exact hn x y
    · exact (nomatch en)

theorem scheme_keeps {dist : VB.Ctx ℝ → List (VB.Part ℝ) → Mem ℝ → Res (Mem ℝ)} (h : Scheme dist) (X : VB.Ctx ℝ) (ps : List (VB.Part ℝ))
    {m m' : Mem ℝ} (e : dist X ps m = .ok m') {c : Comp} (hc : ¬ isJ c) : ∀ x y, m' c x y = m c x y := by
  have n1 : c ≠ .jr := fun h => hc (Or.inl h)
  have n2 : c ≠ .jp := fun h => hc (Or.inr (Or.inl h))
  have n3 : c ≠ .jz := fun h => hc (Or.inr (Or.inr h))
  have cl : ∀ n : Mem ℝ, ∀ x y, VB.overlayClear X.g n c x y = n c x y := by
    intro n x y
    unfold VB.overlayClear
    rw [if_neg (fun h => hc h.1)]
  rcases h with rfl | rfl
  · unfold VB.currentDistribution at e
    obtain ⟨m1, e1, e2⟩ := Res.bind_ok e
    unfold VB.azimuthal at e1
    unfold VB.rz at e2
    have k1 := loop_keeps (fun n : Mem ℝ => ∀ x y, n c x y = m c x y) _ ps (fun p _ n n' hn en x y => by
      rw [runOps_keeps X.g _ (fun o ho => ?_) en hc]
      · exact hn x y
      · unfold VB.azimuthalOps at ho
        simp only [List.mem_cons, List.not_mem_nil, or_false] at ho
        rcases ho with rfl | rfl | rfl | rfl <;> exact Or.inr (Or.inl rfl)) _ m1 (cl m) e1
    intro x y
    rw [VB.rz_other X c n1 n3 ps _ _ e2, cl, k1]
  · unfold ZigZag.currentDistribution at e
    refine loop_keeps (fun n : Mem ℝ => ∀ x y, n c x y = m c x y) _ ps (fun p _ n n' hn en x y => ?_) _ m' (cl m) e
    unfold ZigZag.particle at en
    obtain ⟨ops, e1, e2⟩ := Res.bind_ok en
    rw [runOps_keeps X.g ops (fun o ho => ?_) e2 hc]
    · exact hn x y
    · unfold ZigZag.particleOps at e1
      obtain ⟨iN, _, e1⟩ := Res.bind_ok e1
      obtain ⟨iO, _, e1⟩ := Res.bind_ok e1
      obtain ⟨kN, _, e1⟩ := Res.bind_ok e1
      obtain ⟨kO, _, e1⟩ := Res.bind_ok e1
      obtain ⟨iM, _, e1⟩ := Res.bind_ok e1
      obtain rfl := Res.ok.inj e1
      unfold ZigZag.cellOps at ho
      simp only [List.mem_cons, List.not_mem_nil, or_false] at ho
      rcases ho with rfl | rfl | rfl | rfl | rfl | rfl | rfl | rfl | rfl | rfl | rfl | rfl <;> simp [OnJ, isJ]

/-- The current step changes nothing but the currents. -/
theorem solve_keeps {dist : VB.Ctx ℝ → List (VB.Part ℝ) → Mem ℝ → Res (Mem ℝ)} (h : Scheme dist) (p : Par ℝ) (domR domZ : Nat)
    (e : Consts ℝ) (ps : Nat → Nat → List (VB.Part ℝ)) {M M' : Solvers ℝ} (es : solveCurrent dist p domR domZ e ps M = .ok M')
    {c : Comp} (hc : ¬ isJ c) : ∀ i j x y, M' i j c x y = M i j c x y := by
  unfold solveCurrent at es
  obtain ⟨M1, e1, e2⟩ := Res.bind_ok es
  unfold each at e1
  have k1 := loop_keeps (fun N : Solvers ℝ => ∀ i j x y, N i j c x y = M i j c x y) _ _ (fun q _ N N' hN en i j x y => by
    obtain ⟨r, f1, f2⟩ := Res.bind_ok en
    obtain rfl := Res.ok.inj f2
    dsimp only
    split
    · rename_i hq
      rw [scheme_keeps h _ _ f1 hc, ← hN i j x y, hq.1, hq.2]
      unfold VB.resetCurrent
      rw [if_neg (fun h => hc h.1)]
    · exact hN i j x y) _ M1 (fun _ _ _ _ => rfl) e1
  refine loop_keeps (fun N : Solvers ℝ => ∀ i j x y, N i j c x y = M i j c x y) _ _ (fun c' hc' N N' hN en i j x y => ?_) _ M' k1 e2
  unfold overlayComp at en
  obtain ⟨D, _, f2⟩ := Res.bind_ok en
  obtain rfl := Res.ok.inj f2
  unfold ofGrid
  dsimp only
  rw [if_neg]
  · exact hN i j x y
  · rintro ⟨rfl, _⟩
    exact hc (by simpa [isJ] using hc')

/-! ### The chamber put together -/

theorem glue_cell {E : Env} (hd : Divided E.p E.domR E.domZ) {X Y : Int} (hl : E.p.logical X Y) :
    ∃ i j x y, CellOf E.p E.domR E.domZ i j x y ∧ X = low E.p.nr E.domR i + x ∧ Y = low E.p.nz E.domZ j + y ∧
      ∀ M c, glue E M c X Y = M i j c x y := by
  obtain ⟨⟨x0, x1⟩, y0, y1⟩ := hl
  have one : ∀ (n d : Nat) (X : Int), 1 ≤ d → 2 * d ≤ n → d ∣ n → 0 ≤ X → X < n →
      X.toNat / (n / d) < d ∧ 0 ≤ X - low n d (X.toNat / (n / d)) ∧ X - low n d (X.toNat / (n / d)) < hgt n d (X.toNat / (n / d)) := by
    intro n d X h1 h2 h4 a b
    have hp : 0 < n / d := Nat.div_pos (by omega) h1
    have e : d * (n / d) = n := Nat.mul_div_cancel' h4
    have a1 := Nat.div_mul_le_self X.toNat (n / d)
    have a2 := Nat.lt_div_mul_add (a := X.toNat) hp
    refine ⟨?_, ?_, ?_⟩
    · rw [Nat.div_lt_iff_lt_mul hp, e]
      omega
    · rw [low_mul h1 h4]
      omega
    · rw [low_mul h1 h4, hgt_const h1 h4]
      omega
  obtain ⟨a1, a2, a3⟩ := one _ _ X hd.r1 hd.r2 hd.r4 x0 x1
  obtain ⟨b1, b2, b3⟩ := one _ _ Y hd.z1 hd.z2 hd.z4 y0 y1
  exact ⟨_, _, _, _, ⟨a1, b1, ⟨a2, a3⟩, b2, b3⟩, by omega, by omega, fun _ _ => rfl⟩

theorem cell_glue {E : Env} (hd : Divided E.p E.domR E.domZ) {i j : Nat} {x y : Int} (hc : CellOf E.p E.domR E.domZ i j x y)
    (M : Solvers ℝ) (c : Comp) : glue E M c (low E.p.nr E.domR i + x) (low E.p.nz E.domZ j + y) = M i j c x y := by
  obtain ⟨_, _, ⟨x0, x1⟩, y0, y1⟩ := hc
  unfold glue
  rw [low_add hd.r1 hd.r2 hd.r4 x0 x1, low_add hd.z1 hd.z2 hd.z4 y0 y1, add_sub_cancel_left, add_sub_cancel_left]

theorem window_glue {E : Env} (hd : Divided E.p E.domR E.domZ) {M : Solvers ℝ} {m : Mem ℝ} {c : Comp}
    (W : Windows E.p E.domR E.domZ c M m) {X Y : Int} (hl : E.p.logical X Y) : glue E M c X Y = m c X Y := by
  obtain ⟨i, j, x, y, hc, rfl, rfl, e⟩ := glue_cell hd hl
  obtain ⟨hi, hj, hl⟩ := (cellOf_iff E.p E.domR E.domZ i j x y).mp hc
  rw [e, (W i j x y ((overlayOf_iff E.p E.domR E.domZ i j x y).mpr ⟨hi, hj, (Par.logical_edge hl).1⟩)).1
    (not_seam E.p E.domR E.domZ i j x y (Par.logical_edge hl))]

/-- The field step of the chamber. -/
theorem maxwell_glue {E : Env} (hd : Divided E.p E.domR E.domZ) {M : Solvers ℝ} {m : Mem ℝ}
    (W : ∀ c, c.isSource = false → Windows E.p E.domR E.domZ c M m) :
    ∃ M1 mE m1, solveMaxwell (domPar E.p E.domR E.domZ) E.domR E.domZ M = .ok M1 ∧
      calcE E.p (setSources (glue E M) m) = .ok mE ∧ calcH E.p mE = .ok m1 ∧
      (∀ c, c.isSource = false → Windows E.p E.domR E.domZ c M1 m1) ∧
      ∀ i j c x y, i < E.domR → j < E.domZ → c.isSource = true → M1 i j c x y = M i j c x y := by
  have e : (fun i j => setSources (M i j) (M i j)) = M := by
    funext i j c x y
    exact ite_self _
  obtain ⟨M1, m1, e1, e2, W1, k⟩ := C62_step E.p hd W (loc := fun i j => M i j) (src := glue E M) (by
    intro i j x y c _ hc
    exact (cell_glue hd hc M c).symm)
  rw [e] at e1
  obtain ⟨mE, a, b⟩ := Res.bind_ok e2
  exact ⟨M1, mE, m1, e1, a, b, W1, k⟩

/-! ### Charge -/

theorem sum_flatMap' {α : Type _} (l : List α) (f : α → List ℝ) : (l.flatMap f).sum = (l.map fun a => (f a).sum).sum := by
  induction l with
  | nil => rfl
  | cons a l ih => rw [List.flatMap_cons, List.sum_append, ih, List.map_cons, List.sum_cons]

theorem charge_parts (E : Env) (S : State) (X Y : Int) : chargeAt E S X Y =
    ((partsOf E.domR E.domZ (fun _ _ => true) (depositsOf E S.heap S.D)).map
      fun p => VB.nodeCharge (ctxOf E.p 0 E.e).g p.q p.r p.z X Y).sum := by
  rw [sum_partsOf]
  unfold chargeAt
  refine Finset.sum_congr rfl fun i _ => Finset.sum_congr rfl fun j _ => ?_
  rw [if_pos rfl]
  unfold depositsOf
  generalize S.D i j = l
  induction l with
  | nil => rfl
  | cons sp l ih =>
    rw [List.map_cons, List.sum_cons, ih, List.flatMap_cons, List.map_append, List.sum_append, List.map_map]
    rfl

theorem charge_ids (E : Env) {S : State} {ids : List Nat} (nd : ids.Nodup) (hD : ∀ i j, (S.D i j).map Sp.id = ids) (X Y : Int) :
    chargeAt E S X Y = (ids.map fun id => ((tagsOf E S.D id).map fun t =>
      VB.nodeCharge (ctxOf E.p 0 E.e).g (E.charge id * (S.heap t).weight) (S.heap t).posR (S.heap t).posZ X Y).sum).sum := by
  rw [charge_parts, ((deposits_perm E S.heap nd hD).map _).sum_eq, List.map_flatMap, sum_flatMap']
  simp only [List.map_map]
  rfl

/-- The places that the particles come from. -/
theorem charge_before {E : Env} (h : Chamber E) (hk : Pusher.Relativistic E.kind) {ids : List Nat} (nd : ids.Nodup) {S T : State}
    (A : Alive E ids S) (B : NoBorder E S) (st : Step E S T) (hD : ∀ i j, (T.D i j).map Sp.id = ids)
    (pm : ∀ id ∈ ids, (tagsOf E T.D id).Perm (tagsOf E S.D id)) (X Y : Int) :
    ((partsOf E.domR E.domZ (fun _ _ => true) (depositsOf E T.heap T.D)).map
      fun p => VB.nodeCharge (ctxOf E.p 0 E.e).g p.q p.rOld p.zOld X Y).sum = chargeAt E S X Y := by
  rw [charge_ids E nd A.species, ((deposits_perm E T.heap nd hD).map _).sum_eq, List.map_flatMap, sum_flatMap']
  refine congrArg List.sum (List.map_congr_left fun id hid => ?_)
  rw [List.map_map, ((pm id hid).map _).sum_eq]
  refine congrArg List.sum (List.map_congr_left fun t ht => ?_)
  obtain ⟨i, j, hi, hj, sp, hsp, _, o, ho, rfl⟩ := mem_tags.mp ht
  obtain ⟨M1, f1, f2, _⟩ := st
  obtain ⟨v, _, _, q⟩ := moves_iff h hk A B f1 hi hj hsp ho
  have e := (q _).mp (f2 i j hi hj sp hsp o ho)
  show VB.nodeCharge _ (E.charge id * (T.heap o.tag).weight) (T.heap o.tag).oldR (T.heap o.tag).oldZ X Y = _
  rw [e]
  rfl

/-! ### Gauss's law -/

/-- A discrete divergence for which the electric step and the currents fit together at the node `(X, Y)`. -/
structure Law (E : Env) (δ : (Int → Int → ℝ) → (Int → Int → ℝ) → ℝ) (X Y : Int) : Prop where
  x0 : 0 ≤ X
  x1 : X < E.p.nr
  y0 : 1 ≤ Y
  y1 : Y < E.p.nz
  congr : ∀ F F' G G' : Int → Int → ℝ, (∀ x y, E.p.logical x y → F x y = F' x y) → (∀ x y, E.p.logical x y → G x y = G' x y) → δ F G = δ F' G'
  step : ∀ m m' : Mem ℝ, calcE E.p m = .ok m' → (∀ a b, E.p.logical a b → m .eps a b ≠ 0 ∧ m .sig a b = 0) →
    δ (displacement m' .er) (displacement m' .ez) = δ (displacement m .er) (displacement m .ez) - E.p.dt * δ (m .jr) (m .jz)
  flow : ∀ J : Mem ℝ, δ (J .jr) (J .jz) = VB.outflow E.e.pi (ctxOf E.p 0 E.e).g J X Y / (VB.faceZ E.e.pi (ctxOf E.p 0 E.e).g X * E.p.dz)
  zero : δ (fun _ _ => 0) (fun _ _ => 0) = 0

/-- What Gauss's law will lack after the next electric step. -/
noncomputable def owed (E : Env) (δ : (Int → Int → ℝ) → (Int → Int → ℝ) → ℝ) (S : State) (X Y : Int) : ℝ :=
  δ (displacement (glue E S.M) .er) (displacement (glue E S.M) .ez) - E.p.dt * δ (glue E S.M .jr) (glue E S.M .jz) - density E S X Y

theorem law_step {E : Env} (h : Chamber E) (hk : Pusher.Relativistic E.kind) (hz : E.dist = VB.currentDistribution)
    {δ : (Int → Int → ℝ) → (Int → Int → ℝ) → ℝ} {X Y : Int} (L : Law E δ X Y) {ids : List Nat} (nd : ids.Nodup) {S T : State}
    (A : Alive E ids S) (B : NoBorder E S) (I : Insulating E S) (st : Step E S T) (G : GeneralPaths E T) :
    Alive E ids T ∧ Insulating E T ∧ owed E δ T X Y = owed E δ S X Y ∧
      δ (displacement (glue E T.M) .er) (displacement (glue E T.M) .ez) - density E S X Y = owed E δ S X Y := by
  obtain ⟨T', s1, AT, pm, hous⟩ := step_all h hk (hz ▸ vb_sound) nd A B
  obtain rfl := (s1 T).mp st
  have cb := charge_before h hk nd A B st AT.species pm X Y
  obtain ⟨m, W⟩ := A.fields
  obtain ⟨M1, mE, m1, e1, e2, e3, W1, keep⟩ := maxwell_glue h.div W
  obtain ⟨N1, f1, _, _, _, f5⟩ := st
  obtain rfl := Res.ok.inj (e1.symm.trans f1)
  have sk : ∀ c, ¬ isJ c → ∀ i j x y, T.M i j c x y = M1 i j c x y :=
    fun c hc => solve_keeps (Or.inl hz) _ _ _ _ _ f5 hc
  -- media
  have med : ∀ c, c = .eps ∨ c = .sig → ∀ i j x y, CellOf E.p E.domR E.domZ i j x y → T.M i j c x y = S.M i j c x y := by
    rintro c hc i j x y ⟨hi, hj, _⟩
    rw [sk c (by rcases hc with rfl | rfl <;> simp [isJ]), keep i j c x y hi hj (by rcases hc with rfl | rfl <;> rfl)]
  have IT : Insulating E T := by
    intro i j x y hc
    rw [med _ (Or.inl rfl) i j x y hc, med _ (Or.inr rfl) i j x y hc]
    exact I i j x y hc
  -- the electric step
  have disp : ∀ c, c = .er ∨ c = .ez → ∀ x y, E.p.logical x y →
      displacement (glue E T.M) c x y = displacement mE c x y ∧ displacement (glue E S.M) c x y = displacement (setSources (glue E S.M) m) c x y := by
    intro c hc x y hl
    have cs : c.isSource = false := by rcases hc with rfl | rfl <;> rfl
    have ch : ¬ isH c := by rcases hc with rfl | rfl <;> simp [isH]
    have cj : ¬ isJ c := by rcases hc with rfl | rfl <;> simp [isJ]
    have p1 : (1 : Nat) ≤ E.p.nr := by have := h.div.r1; have := h.div.r2; omega
    have p2 : (1 : Nat) ≤ E.p.nz := by have := h.div.z1; have := h.div.z2; omega
    obtain ⟨m1', q1, q2, _⟩ := calcH_eq E.p p1 mE
    obtain rfl := Res.ok.inj (q1.symm.trans e3)
    obtain ⟨mE', q3, q4, _⟩ := calcE_eq E.p p1 (by have := h.div.r3; omega) p2 (by have := h.div.z3; omega) (setSources (glue E S.M) m)
    obtain rfl := Res.ok.inj (q3.symm.trans e2)
    obtain ⟨i, j, u, v, hc', rfl, rfl, eg⟩ := glue_cell h.div hl
    unfold displacement
    constructor
    · have a : glue E T.M c (low E.p.nr E.domR i + u) (low E.p.nz E.domZ j + v) = mE' c (low E.p.nr E.domR i + u) (low E.p.nz E.domZ j + v) := by
        rw [eg, sk c cj, ← eg M1, window_glue h.div (W1 c cs) hl, q2 _ _ _ ch]
      have b : glue E T.M .eps (low E.p.nr E.domR i + u) (low E.p.nz E.domZ j + v) = mE' .eps (low E.p.nr E.domR i + u) (low E.p.nz E.domZ j + v) := by
        rw [eg, med _ (Or.inl rfl) i j u v hc', ← eg S.M, q4 _ _ _ (by simp [isE])]
        rfl
      rw [a, b]
    · have a : setSources (glue E S.M) m c (low E.p.nr E.domR i + u) (low E.p.nz E.domZ j + v) = m c (low E.p.nr E.domR i + u) (low E.p.nz E.domZ j + v) := by
        unfold setSources
        rw [cs]
        rfl
      rw [a, window_glue h.div (W c cs) hl]
      rfl
  have el := L.step _ _ e2 (by
    intro a b hl
    obtain ⟨i, j, u, v, hc', rfl, rfl, eg⟩ := glue_cell h.div hl
    have := I i j u v hc'
    rw [← eg S.M .eps, ← eg S.M .sig] at this
    exact this)
  rw [← L.congr _ _ _ _ (fun x y hl => (disp .er (Or.inl rfl) x y hl).1) (fun x y hl => (disp .ez (Or.inr rfl) x y hl).1),
    ← L.congr _ _ _ _ (fun x y hl => (disp .er (Or.inl rfl) x y hl).2) (fun x y hl => (disp .ez (Or.inr rfl) x y hl).2)] at el
  have el : δ (displacement (glue E T.M) .er) (displacement (glue E T.M) .ez) =
    δ (displacement (glue E S.M) .er) (displacement (glue E S.M) .ez) - E.p.dt * δ (glue E S.M .jr) (glue E S.M .jz) := el
  -- the currents
  have mem : ∀ a b, a < E.domR → b < E.domZ → ∀ q ∈ depositsOf E T.heap T.D a b,
      q.General (ctxOf E.p 0 E.e).g E.e.mnzl ∧ ¬ CutsCorner E.p E.domR E.domZ a b q := by
    intro a b ha hb q hq
    unfold depositsOf at hq
    obtain ⟨sp, hsp, hq⟩ := List.mem_flatMap.mp hq
    obtain ⟨o, ho, rfl⟩ := List.mem_map.mp hq
    exact G a b ha hb sp hsp o ho
  have slant : ∀ q : VB.Part ℝ, q.General (ctxOf E.p 0 E.e).g E.e.mnzl → E.e.mnzl ≤ |q.r - q.rOld| := by
    intro q g
    have := (g.apart 0 1 le_rfl one_pos le_rfl (Or.inl rfl) (Or.inl rfl)).1
    unfold VB.Part.rAt at this
    rw [show q.rOld + 1 * (q.r - q.rOld) - (q.rOld + 0 * (q.r - q.rOld)) = q.r - q.rOld by ring] at this
    exact this
  obtain ⟨M', j', g1, g2, g3⟩ := C96_vb_partial E.p h.div E.e h.good (depositsOf E T.heap T.D) hous
    (fun a b ha hb q hq => Or.inl (slant q (mem a b ha hb q hq).1)) (fun a b ha hb q hq => (mem a b ha hb q hq).2)
    (fun a b ha hb q hq e => (mem a b ha hb q hq).1.start.1 ⟨⌊q.r / E.p.dr⌋ + 1, by rw [e]; push_cast; rfl⟩)
    _ (List.Perm.refl _) M1 m1
  rw [hz] at f5
  obtain rfl := Res.ok.inj (g1.symm.trans f5)
  obtain ⟨j'', g4, _, g5⟩ := VB.C18_run_partial (ctxOf E.p 0 E.e) h.good
    (partsOf E.domR E.domZ (fun _ _ => true) (depositsOf E T.heap T.D)) (by
      intro q hq
      obtain ⟨a, b, ha, hb, _, hq⟩ := mem_partsOf.mp hq
      obtain ⟨h1, h2⟩ := hous a b ha hb q hq
      exact ⟨dom_bound h.div E.e h.good ha hb h1, dom_near h.div E.e h2, (mem a b ha hb q hq).1⟩) m1
  obtain rfl := Res.ok.inj (g4.symm.trans g2)
  have r0 : (ctxOf E.p 0 E.e).g.r0 = 0 := h.r0
  have z0 : (ctxOf E.p 0 E.e).g.z0 = 0 := rfl
  have x0 := L.x0
  have x1 := L.x1
  have y0 := L.y0
  have y1 := L.y1
  have cont := g5 X Y (by rw [r0]; omega) (by omega) (by show X < E.p.nr + 2; omega) (by omega) (by show Y < E.p.nz + 2; omega)
  rw [r0, z0, Nat.cast_zero, add_zero, add_zero, cb, ← charge_parts] at cont
  have jj : δ (glue E T.M .jr) (glue E T.M .jz) = δ (j'' .jr) (j'' .jz) := by
    refine L.congr _ _ _ _ ?_ ?_
    · intro x y hl
      obtain ⟨i, j, u, v, hc', rfl, rfl, eg⟩ := glue_cell h.div hl
      rw [eg, g3 i j _ u v (Or.inl rfl) hc']
    · intro x y hl
      obtain ⟨i, j, u, v, hc', rfl, rfl, eg⟩ := glue_cell h.div hl
      rw [eg, g3 i j _ u v (Or.inr rfl) hc']
  have key : - (E.p.dt * δ (glue E T.M .jr) (glue E T.M .jz)) = density E T X Y - density E S X Y := by
    rw [jj, L.flow]
    unfold density
    rw [← sub_div, cont]
    show - (E.p.dt * (VB.outflow E.e.pi (ctxOf E.p 0 E.e).g j'' X Y / _)) = - E.p.dt * VB.outflow E.e.pi (ctxOf E.p 0 E.e).g j'' X Y / _
    rw [mul_div_assoc, neg_mul]
  refine ⟨AT, IT, ?_, ?_⟩
  · unfold owed
    rw [el]
    linarith
  · unfold owed
    rw [el]

theorem law_run {E : Env} (h : Chamber E) (hk : Pusher.Relativistic E.kind) (hz : E.dist = VB.currentDistribution)
    {δ : (Int → Int → ℝ) → (Int → Int → ℝ) → ℝ} {X Y : Int} (L : Law E δ X Y) {ids : List Nat} (nd : ids.Nodup) {S : State}
    (A : Alive E ids S) (I : Insulating E S) (n : Nat)
    (B : ∀ k T, k < n → Run E S k T → NoBorder E T ∧ ∀ T', Step E T T' → GeneralPaths E T') {T : State} (r : Run E S n T) :
    Alive E ids T ∧ Insulating E T ∧ owed E δ T X Y = owed E δ S X Y := by
  induction r with
  | start => exact ⟨A, I, rfl⟩
  | step r s ih =>
    rename_i n T T'
    obtain ⟨A1, I1, e1⟩ := ih fun k U hk r => B k U (by omega) r
    obtain ⟨b1, b2⟩ := B n T (by omega) r
    obtain ⟨A2, I2, e2, _⟩ := law_step h hk hz L nd A1 b1 I1 s (b2 T' s)
    exact ⟨A2, I2, e2.trans e1⟩

/-- The two laws of the code. -/
theorem chamber_par {E : Env} (h : Chamber E) (mu : 0 < E.p.mu) : E.p.Good where
  dr := h.good.geo.dr
  dz := h.good.geo.dz
  dt := h.good.dt
  mu := mu
  nr := by have := h.div.r1; have := h.div.r2; omega
  nz := by have := h.div.z1; have := h.div.z2; omega
  nr' := h.div.r3
  nz' := h.div.z3
  axis := by rw [h.walls, h.r0]; simp
  nr2 := fun _ _ => by have := h.div.r1; have := h.div.r2; omega
  nz2 := fun _ _ => by have := h.div.z1; have := h.div.z2; omega

theorem law_inner {E : Env} (h : Chamber E) (mu : 0 < E.p.mu) {X Y : Int} (hx : 1 ≤ X) (hy : 1 ≤ Y) (hx' : X + 1 < E.p.nr) (hy' : Y + 1 < E.p.nz) :
    Law E (fun F G => divElectric E.p F G X Y) X Y where
  x0 := by omega
  x1 := by omega
  y0 := hy
  y1 := by omega
  congr := by
    intro F F' G G' a b
    unfold divElectric
    rw [a X Y (by unfold Par.logical; omega), a (X - 1) Y (by unfold Par.logical; omega), b X Y (by unfold Par.logical; omega),
      b X (Y - 1) (by unfold Par.logical; omega)]
  step := by
    intro m m' e hm
    refine C16_gauss E.p (chamber_par h mu) e X Y hx hy (by rw [h.walls]; simpa using hx') (by rw [h.walls]; simpa using hy') ?_
    rintro a b hab
    refine hm a b ?_
    unfold Par.logical
    omega
  flow := by
    intro J
    rw [VB.divElectric_outflow E.p (ctxOf E.p 0 E.e) h.good ⟨rfl, rfl, rfl, rfl, rfl, rfl⟩ J X Y hx]
    congr 1
    have hX : (1 : ℝ) ≤ X := by exact_mod_cast hx
    have dr : 0 < E.p.dr := h.good.geo.dr
    unfold VB.faceZ nodeRing
    show E.e.pi * E.p.dz * ((((E.p.r0 : ℝ) + X + 1/2) * E.p.dr) ^ 2 - (((E.p.r0 : ℝ) + X - 1/2) * E.p.dr) ^ 2) =
      E.e.pi * ((((X : ℝ) + 1/2) * E.p.dr) ^ 2 - (max 0 (((X : ℝ) - 1/2) * E.p.dr)) ^ 2) * E.p.dz
    rw [max_eq_right (mul_nonneg (by linarith) dr.le), h.r0]
    push_cast
    ring
  zero := by
    unfold divElectric divergence
    simp

theorem law_axis {E : Env} (h : Chamber E) (mu : 0 < E.p.mu) {Y : Int} (hy : 2 ≤ Y) (hy' : Y + 1 < E.p.nz) :
    Law E (fun F G => divElectricAxis E.p F G Y) 0 Y where
  x0 := le_rfl
  x1 := by have := h.div.r1; have := h.div.r2; omega
  y0 := by omega
  y1 := by omega
  congr := by
    intro F F' G G' a b
    have := h.div.r1
    have := h.div.r2
    unfold divElectricAxis
    rw [a 0 Y (by unfold Par.logical; omega), b 0 Y (by unfold Par.logical; omega),
      b 0 (Y - 1) (by unfold Par.logical; omega)]
  step := by
    intro m m' e hm
    have := h.div.r1
    have := h.div.r2
    refine C16_gauss_axis_partial E.p (chamber_par h mu) e (by rw [h.walls]) Y (by omega) (fun _ => hy) (by rw [h.walls]; simpa using hy') ?_
    rintro b hab
    refine hm 0 b ?_
    unfold Par.logical
    omega
  flow := by
    intro J
    have dr : 0 < E.p.dr := h.good.geo.dr
    have dz : 0 < E.p.dz := h.good.geo.dz
    have pi : 0 < E.e.pi := h.good.pi
    unfold VB.outflow VB.faceZ VB.faceR divElectricAxis divergenceAxis
    have r0 : (ctxOf E.p 0 E.e).g.r0 = 0 := h.r0
    have g1 : (ctxOf E.p 0 E.e).g.dr = E.p.dr := rfl
    have g2 : (ctxOf E.p 0 E.e).g.dz = E.p.dz := rfl
    rw [r0, g1, g2]
    push_cast
    rw [max_eq_right (show (0 : ℝ) ≤ (0 + 1/2) * E.p.dr by positivity), max_eq_left (show (-1 + 1/2) * E.p.dr ≤ 0 by linarith),
      max_eq_left (show (0 - 1/2) * E.p.dr ≤ 0 by linarith)]
    field_simp
    ring
  zero := by
    unfold divElectricAxis divergenceAxis
    simp

theorem owed_start {E : Env} {δ : (Int → Int → ℝ) → (Int → Int → ℝ) → ℝ} {X Y : Int} (L : Law E δ X Y) (h : Chamber E) {S : State}
    (N : NoCurrents E S) :
    owed E δ S X Y = δ (displacement (glue E S.M) .er) (displacement (glue E S.M) .ez) - density E S X Y := by
  have : δ (glue E S.M .jr) (glue E S.M .jz) = 0 := by
    refine (L.congr _ _ _ _ ?_ ?_).trans L.zero
    · intro x y hl
      obtain ⟨i, j, u, v, hc', rfl, rfl, eg⟩ := glue_cell h.div hl
      rw [eg]
      exact (N i j u v hc').1
    · intro x y hl
      obtain ⟨i, j, u, v, hc', rfl, rfl, eg⟩ := glue_cell h.div hl
      rw [eg]
      exact (N i j u v hc').2
  unfold owed
  rw [this]
  ring

/-! ### The magnetic field and the walls -/

/-- The fields of a run fit together and have a history. -/
theorem fields_run {E : Env} (hd : Divided E.p E.domR E.domZ) (hz : Scheme E.dist) {S : State} (Z : NoFields E S) {n : Nat} {T : State}
    (r : Run E S n T) : ∃ m0 m, Fresh E.p m0 ∧ History E.p m0 m ∧ ∀ c, c.isSource = false → Windows E.p E.domR E.domZ c T.M m := by
  induction r with
  | start =>
    refine ⟨fun _ _ _ => 0, fun _ _ _ => 0, fun _ _ _ _ _ _ => rfl, .nil, fun c hc i j x y ho => ?_⟩
    rw [Z i j c x y ho hc]
    exact ⟨fun _ => rfl, fun _ => rfl⟩
  | step r s ih =>
    rename_i n T T'
    obtain ⟨m0, m, F, H, W⟩ := ih
    obtain ⟨M1, mE, m1, e1, e2, e3, W1, keep⟩ := maxwell_glue hd W
    obtain ⟨N1, f1, _, _, _, f5⟩ := s
    obtain rfl := Res.ok.inj (e1.symm.trans f1)
    refine ⟨m0, m1, F, .snoc (.snoc (.snoc H (.other ?_)) (.electric e2)) (.magnetic e3), fun c hc i j x y ho => ?_⟩
    · intro c x y hf _
      unfold setSources
      rw [if_neg]
      intro k
      cases c <;> first | exact hf | exact (nomatch k)
    · rw [solve_keeps hz _ _ _ _ _ f5 (c := c) (by unfold isJ; rintro (rfl | rfl | rfl) <;> exact (nomatch hc)) i j x y]
      exact W1 c hc i j x y ho

end Pic
end Pico
