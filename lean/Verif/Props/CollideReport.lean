import Verif.Model.CollideReport
import Verif.Props.CollidePass
import Verif.Props.CollideRel

/-! Property C122: collision steps of P12 end, however strong the collisions are. -/

set_option linter.unusedSimpArgs false
set_option linter.unusedVariables false

namespace Pico
namespace Coll

/-- `b` does to the first component of the state what `a` does, and appends only values of `s12` to the second. -/
def Shadows (rnd : Nat → Rnd) (a : St → Res St) (b : StS → Res StS) : Prop :=
  ∀ s l, match a s with
    | .ok s' => ∃ l', b (s, l) = .ok (s', l') ∧ ∃ m, l' = l ++ m ∧ ∀ x ∈ m, ∃ n, x = (rnd n).x
    | .fatal => b (s, l) = .fatal
    | .ub => b (s, l) = .ub

theorem shadows_loop {β : Type} {rnd : Nat → Rnd} {f : β → St → Res St} {g : β → StS → Res StS} (h : ∀ x, Shadows rnd (f x) (g x)) (l : List β) :
    Shadows rnd (loop f l) (loop g l) := by
  induction l with
  | nil => intro s m; exact ⟨m, rfl, [], by simp, by simp⟩
  | cons x l ih =>
    intro s m
    rw [loop_cons, loop_cons]
    have hx := h x s m
    cases e : f x s with
    | ok s' =>
      rw [e] at hx
      obtain ⟨m', e', k, rfl, hk⟩ := hx
      rw [e', Res.ok_bind, Res.ok_bind]
      have hl := ih s' (m ++ k)
      cases e2 : loop f l s' with
      | ok s2 =>
        rw [e2] at hl
        obtain ⟨m2, e2', k2, rfl, hk2⟩ := hl
        exact ⟨_, e2', k ++ k2, by simp, by
          intro y hy
          rcases List.mem_append.1 hy with hy | hy
          · exact hk y hy
          · exact hk2 y hy⟩
      | fatal => rw [e2] at hl; exact hl
      | ub => rw [e2] at hl; exact hl
    | fatal => rw [e] at hx; rw [hx]; rfl
    | ub => rw [e] at hx; rw [hx]; rfl

theorem shadows_hit (P : Phys) (rnd : Nat → Rnd) (a : Args) (x y : Option Nat) : Shadows rnd (hit .p12 P rnd a x y) (hitS P rnd a x y) := by
  intro s l
  unfold hitS
  cases e : hit .p12 P rnd a x y s with
  | ok s' =>
    refine ⟨_, rfl, ?_⟩
    cases x <;> cases y <;> dsimp only
    · exact ⟨[], by simp, by simp⟩
    · exact ⟨[], by simp, by simp⟩
    · exact ⟨[], by simp, by simp⟩
    · split_ifs
      · exact ⟨_, rfl, fun z hz => ⟨s.2, List.mem_singleton.1 hz⟩⟩
      · exact ⟨[], by simp, by simp⟩
  | fatal => rfl
  | ub => rfl

theorem shadows_all (P : Phys) (rnd : Nat → Rnd) (K : Kinds) (g : Place) (els ions : Nat → Nat → List Nat) (h : Heap) (l : List (Nat × Nat)) :
    Shadows rnd (loop (collideCell .p12 P rnd K g els ions h) l) (loop (collideCellS P rnd K g els ions h) l) := by
  apply shadows_loop
  intro c s m
  unfold collideCell collideCellS
  cases cellDebye P.k g.dr g.dz K.massEl K.massIon g.r0 c.1 ((els c.1 c.2).map h) ((ions c.1 c.2).map h) with
  | ok d =>
    rw [Res.ok_bind, Res.ok_bind]
    cases d with
    | none => exact ⟨m, rfl, [], by simp, by simp⟩
    | some debye =>
      refine shadows_loop (fun pr => ?_) _ s m
      cases pr with
      | ii a b => exact shadows_hit _ _ _ _ _
      | ee a b => exact shadows_hit _ _ _ _ _
      | ei a b => exact shadows_hit _ _ _ _ _
  | fatal => rfl
  | ub => rfl

/-- **C122.**  If no single collision is stronger than the limit of the message (1.2), the step ends as the collisions themselves do (C102): the
mean values have no effect.  Full statement (false, `C122_strong_fails`): for all collisions. -/
theorem C122_quiet_partial (P : Phys) (rnd : Nat → Rnd) (K : Kinds) (g : Place) (els ions : Nat → Nat → List Nat) (h : Heap)
    (weak : ∀ n, (rnd n).x ≤ 1.2) : collideP12All P rnd K g els ions h = collideAll .p12 P rnd K g els ions h := by
  unfold collideP12All collideAll collideS collide
  have k := shadows_all P rnd K g els ions h
    (visited K.massEl K.massIon g.nr g.nz (fun i j => (els i j).map h) (fun i j => (ions i j).map h)) (h, 0) []
  cases e : loop (collideCell .p12 P rnd K g els ions h)
    (visited K.massEl K.massIon g.nr g.nz (fun i j => (els i j).map h) (fun i j => (ions i j).map h)) (h, 0) with
  | ok s =>
    rw [e] at k
    obtain ⟨l, e', m, el, hm⟩ := k
    rw [List.nil_append] at el
    subst el
    rw [e', Res.ok_bind, Res.ok_bind]
    have : report l = .ok () := by
      unfold report
      split_ifs with c1 c2
      · rfl
      · exfalso
        have len : 0 < (l.length : ℝ) := by exact_mod_cast List.length_pos_iff.mpr c1
        rw [lt_div_iff₀ len] at c2
        have : l.sum ≤ l.length • (1.2 : ℝ) := List.sum_le_card_nsmul l _ fun x hx => by
          obtain ⟨n, rfl⟩ := hm x hx
          exact weak n
        rw [nsmul_eq_mul] at this
        linarith
      · rfl
    rw [this]
    rfl
  | fatal => rw [e] at k; rw [k]; rfl
  | ub => rw [e] at k; rw [k]; rfl

/-- **C122**, exactly: what becomes of the step, given the strengths of the collisions that took place. -/
theorem C122_exact (P : Phys) (rnd : Nat → Rnd) (K : Kinds) (g : Place) (els ions : Nat → Nat → List Nat) (h : Heap) {s : St} {l : List ℝ}
    (e : collideS P rnd K g els ions h = .ok (s, l)) :
    (collideP12All P rnd K g els ions h = .ub ↔ l ≠ [] ∧ 1.2 * (l.length : ℝ) < l.sum) ∧
    (¬ (l ≠ [] ∧ 1.2 * (l.length : ℝ) < l.sum) → collideP12All P rnd K g els ions h = collideAll .p12 P rnd K g els ions h) ∧
    collideAll .p12 P rnd K g els ions h = .ok s.1 := by
  have k := shadows_all P rnd K g els ions h
    (visited K.massEl K.massIon g.nr g.nz (fun i j => (els i j).map h) (fun i j => (ions i j).map h)) (h, 0) []
  have e0 := e
  unfold collideS at e
  have pure : collideAll .p12 P rnd K g els ions h = .ok s.1 := by
    unfold collideAll collide
    split at k
    · rename_i s' es
      obtain ⟨l', e', _⟩ := k
      rw [e'] at e
      injection e with e
      injection e with e _
      rw [es, Res.ok_bind, e]
    · rw [k] at e; cases e
    · rw [k] at e; cases e
  have lim : (l ≠ [] ∧ 1.2 * (l.length : ℝ) < l.sum) ↔ (l ≠ [] ∧ 1.2 < l.sum / l.length) := by
    refine and_congr_right fun ne => ?_
    have : (0 : ℝ) < l.length := by exact_mod_cast List.length_pos_iff.mpr ne
    rw [lt_div_iff₀ this]
  have all : collideP12All P rnd K g els ions h = if l ≠ [] ∧ 1.2 < l.sum / l.length then .ub else .ok s.1 := by
    unfold collideP12All
    rw [e0, Res.ok_bind]
    unfold report
    dsimp only
    by_cases c : l = []
    · rw [if_pos c, if_neg (fun q => q.1 c)]
      rfl
    · rw [if_neg c]
      by_cases d : 1.2 < l.sum / l.length
      · rw [if_pos d, if_pos ⟨c, d⟩]
        rfl
      · rw [if_neg d, if_neg (fun q => d q.2)]
        rfl
  rw [lim, all, pure]
  refine ⟨?_, fun c => if_neg c, rfl⟩
  split_ifs with c
  · exact iff_of_true rfl c
  · exact iff_of_false (fun q => by cases q) c

/-- A pair with equal velocities changes nothing and is not counted. -/
theorem hitS_still {P : Phys} {rnd : Nat → Rnd} {a : Args} {x y : Option Nat} {s : StS} {s' : StS} (e : hitS P rnd a x y s = .ok s')
    (same : ∀ p ∈ x, ∀ q ∈ y, vel (s.1.1 p) = vel (s.1.1 q)) : s'.1.1 = s.1.1 ∧ s'.2 = s.2 := by
  unfold hitS hit at e
  cases x with
  | none => cases e
  | some x =>
    cases y with
    | none => cases e
    | some y =>
      have v := same x rfl y rfl
      have core : ∀ ma mb wa wb, p12Core P.k.c P.mnzl ma mb wa wb (rnd s.1.2).x (rnd s.1.2).y (rnd s.1.2).phi (rnd s.1.2).z (rnd s.1.2).normal (vel (s.1.1 x)) (vel (s.1.1 y)) = .ok none ∧
          p12Core P.k.c P.mnzl ma mb wa wb (rnd s.1.2).x (rnd s.1.2).y (rnd s.1.2).phi (rnd s.1.2).z (rnd s.1.2).normal (vel (s.1.1 y)) (vel (s.1.1 x)) = .ok none := by
        intro ma mb wa wb
        unfold p12Core
        rw [if_pos v, if_pos v.symm]
        exact ⟨rfl, rfl⟩
      have cn : counted P a (rnd s.1.2) (s.1.1 x) (s.1.1 y) = false := by
        unfold counted
        split_ifs
        · rw [(core _ _ _ _).1]
        · rw [(core _ _ _ _).2]
      dsimp only at e
      rw [cn, if_neg Bool.false_ne_true] at e
      by_cases w : (s.1.1 y).weight = 0
      · unfold single collideP12 at e
        dsimp only at e
        rw [if_pos w] at e
        cases e
      · have sg : single .p12 P a (rnd s.1.2) (s.1.1 x) (s.1.1 y) = .ok (s.1.1 x, s.1.1 y) := by
          unfold single collideP12
          dsimp only
          rw [if_neg w]
          by_cases c : (s.1.1 x).weight / (s.1.1 y).weight ≤ 1
          · rw [if_pos c, (core _ _ _ _).1]
            rfl
          · rw [if_neg c, (core _ _ _ _).2]
            rfl
        have pp : put (put s.1.1 x (s.1.1 x)) y (s.1.1 y) = s.1.1 := by
          funext t
          unfold put
          split_ifs with c1 c2
          · rw [c1]
          · rw [c2]
          · rfl
        rw [sg] at e
        obtain rfl := Res.ok.inj e
        exact ⟨pp, rfl⟩

/-- What loops keep. -/
theorem loop_keep {β σ : Type} {f : β → σ → Res σ} {I : σ → Prop} (h : ∀ x s s', I s → f x s = .ok s' → I s') (l : List β) (s s' : σ) (hs : I s)
    (e : loop f l s = .ok s') : I s' := by
  induction l generalizing s with
  | nil =>
    obtain rfl := Res.ok.inj e
    exact hs
  | cons x l ih =>
    rw [loop_cons] at e
    cases e1 : f x s with
    | ok s1 => rw [e1, Res.ok_bind] at e; exact ih s1 (h x s s1 hs e1) e
    | fatal => rw [e1] at e; cases e
    | ub => rw [e1] at e; cases e

/-- **C122**: pairs without relative velocity do not count: when in every cell all particles have the same velocity, nothing is changed and the
mean values do no harm, however strong the collisions would have been. -/
theorem C122_still (P : Phys) (rnd : Nat → Rnd) (K : Kinds) (g : Place) (els ions : Nat → Nat → List Nat) (h : Heap)
    (same : ∀ i j, ∀ p ∈ els i j ++ ions i j, ∀ q ∈ els i j ++ ions i j, vel (h p) = vel (h q)) {s : St} {l : List ℝ}
    (e : collideS P rnd K g els ions h = .ok (s, l)) : l = [] ∧ collideP12All P rnd K g els ions h = .ok h := by
  have key : s.1 = h ∧ l = [] := by
    unfold collideS at e
    refine loop_keep (I := fun s : StS => s.1.1 = h ∧ s.2 = []) ?_ _ _ _ ⟨rfl, rfl⟩ e
    rintro c s s' ⟨i1, i2⟩ e
    unfold collideCellS at e
    cases d : cellDebye P.k g.dr g.dz K.massEl K.massIon g.r0 c.1 ((els c.1 c.2).map h) ((ions c.1 c.2).map h) with
    | fatal => rw [d] at e; cases e
    | ub => rw [d] at e; cases e
    | ok o =>
      rw [d, Res.ok_bind] at e
      cases o with
      | none =>
        obtain rfl := Res.ok.inj e
        exact ⟨i1, i2⟩
      | some debye =>
        refine loop_keep (I := fun s : StS => s.1.1 = h ∧ s.2 = []) ?_ _ _ _ ⟨i1, i2⟩ e
        rintro pr s s' ⟨i1, i2⟩ e
        have mem : ∀ {l : List Nat} {k p : Nat}, p ∈ l[k]? → p ∈ l := fun m => List.mem_of_getElem? m
        have k : s'.1.1 = s.1.1 ∧ s'.2 = s.2 := by
          cases pr with
          | ii a b => exact hitS_still e (fun p hp q hq => by rw [i1]; exact same _ _ p (List.mem_append_right _ (mem hp)) q (List.mem_append_right _ (mem hq)))
          | ee a b => exact hitS_still e (fun p hp q hq => by rw [i1]; exact same _ _ p (List.mem_append_left _ (mem hp)) q (List.mem_append_left _ (mem hq)))
          | ei a b => exact hitS_still e (fun p hp q hq => by rw [i1]; exact same _ _ p (List.mem_append_left _ (mem hp)) q (List.mem_append_right _ (mem hq)))
        exact ⟨k.1.trans i1, k.2.trans i2⟩
  obtain ⟨k1, rfl⟩ := key
  obtain ⟨_, b, c⟩ := C122_exact P rnd K g els ions h e
  refine ⟨rfl, ?_⟩
  rw [b (fun q => q.1 rfl), c, k1]

/-- **C122**, refuted: if the collisions are stronger than the limit and at least one takes place, the program uses local variables that were never
given a value. -/
theorem C122_strong_fails (P : Phys) (rnd : Nat → Rnd) (K : Kinds) (g : Place) (els ions : Nat → Nat → List Nat) (h : Heap)
    (strong : ∀ n, 1.2 < (rnd n).x) {s : St} {l : List ℝ} (e : collideS P rnd K g els ions h = .ok (s, l)) (ne : l ≠ []) :
    collideP12All P rnd K g els ions h = .ub := by
  have k := shadows_all P rnd K g els ions h
    (visited K.massEl K.massIon g.nr g.nz (fun i j => (els i j).map h) (fun i j => (ions i j).map h)) (h, 0) []
  have hl : ∀ x ∈ l, 1.2 < x := by
    unfold collideS at e
    split at k
    · obtain ⟨l', e', m, el, hm⟩ := k
      rw [e'] at e
      injection e with e
      injection e with _ e
      rw [← e, el, List.nil_append]
      intro x hx
      obtain ⟨n, rfl⟩ := hm x hx
      exact strong n
    · rw [k] at e; cases e
    · rw [k] at e; cases e
  unfold collideP12All
  rw [e, Res.ok_bind]
  have : report l = .ub := by
    unfold report
    rw [if_neg ne, if_pos]
    have len : 0 < (l.length : ℝ) := by exact_mod_cast List.length_pos_iff.mpr ne
    rw [lt_div_iff₀ len]
    have : l.length • (1.2 : ℝ) < l.sum := by
      clear e k
      induction l with
      | nil => exact absurd rfl ne
      | cons a l ih =>
        have ha := hl a (List.mem_cons_self ..)
        by_cases c : l = []
        · subst c; simpa using ha
        · have := ih c (fun x hx => hl x (List.mem_cons_of_mem _ hx)) (by exact_mod_cast List.length_pos_iff.mpr c)
          simp only [List.length_cons, List.sum_cons, nsmul_eq_mul] at *
          push_cast
          linarith
    rw [nsmul_eq_mul] at this
    linarith
  dsimp only
  rw [this]
  rfl

/-! ### Non-vacuity -/

/-- A cell with one electron and one ion. -/
noncomputable def exPlace : Place := ⟨1, 1, 0, 0, 1, 1⟩
def exCD : Heap := fun t => if t = 0 then exC else exD

/-- One collision takes place, for every strength. -/
theorem ex_collides : ∃ P : Phys, ∀ rnd : Nat → Rnd, ∀ s, 1/10 ≤ s → (∀ n, rnd n = ⟨s, 1/2, 0, 1, true⟩) → ∃ h',
    collideS P rnd ⟨1, 1836, -1, 1⟩ exPlace (fun _ _ => [0]) (fun _ _ => [1]) exCD = .ok (h', [s]) := by
  have hma : (0 : ℝ) < 1 := by norm_num
  have hmb : (0 : ℝ) < 1836 := by norm_num
  have hc : (0 : ℝ) < 10 := by norm_num
  obtain ⟨f, e, g⟩ := comFrame_good hc hma hmb exC_slow exD_slow (skew_total hc hma hmb exC_slow exD_slow exCD_skew)
  have lp := g.len_pos hc hma hmb exC_slow exD_slow (skew_ne exCD_skew)
  have sk := g.skew hc hma hmb exC_slow exD_slow exCD_skew
  obtain ⟨ε, hε, h1⟩ := p12Core_go hc hma (by norm_num) exC_slow exD_slow (skew_ne exCD_skew) e lp
  refine ⟨⟨⟨1, 1, 1, 1, 10, 1, 1⟩, ε, 1⟩, fun rnd s hs hr => ?_⟩
  obtain ⟨cx, ec, c1, c2⟩ := C38_P12_angle hs (by norm_num : (0 : ℝ) ≤ 1/2) (by norm_num)
  obtain ⟨q, eq, _⟩ := turned_ok sk (Real.sqrt (1 - cx ^ 2)) cx (Real.sin 1) (Real.cos 1)
  have le : exC.weight / exD.weight ≤ 1 := by norm_num [exC, exD]
  have core : ∃ w, p12Core 10 ε 1 1836 exC.weight exD.weight s (1/2) 1 0 true (vel exC) (vel exD) = .ok (some w) := by
    rw [h1 ε le_rfl, ec, Res.ok_bind, if_neg (by nlinarith), eq, Res.ok_bind]
    exact ⟨_, rfl⟩
  obtain ⟨w, core⟩ := core
  have vis : visited (1 : ℝ) 1836 1 1 (fun _ _ => [0].map exCD) (fun _ _ => [1].map exCD) = [(0, 0)] := by
    unfold visited
    norm_num [normal, amountTot, energyTot, exCD, exC, exD, List.range_succ]
  have deb : ∃ d, cellDebye ⟨1, 1, 1, 1, 10, 1, 1⟩ 1 1 1 1836 0 0 ([0].map exCD) ([1].map exCD) = .ok (some d) := by
    unfold cellDebye debyeLength
    rw [if_pos (by norm_num [normal, amountTot, energyTot, exCD, exC, exD])]
    rw [if_neg (by norm_num [cellDensity, amountTot, exCD, exC, exD]), if_neg (by norm_num [cellDensity, amountTot, exCD, exC, exD])]
    exact ⟨_, rfl⟩
  obtain ⟨d, deb⟩ := deb
  have prs : cellPairs float32 1 1 = [.ei 0 0] := by
    rfl
  have ind : ([0] : List Nat)[0]? = some 0 ∧ ([1] : List Nat)[0]? = some 1 := ⟨rfl, rfl⟩
  have cnt : counted ⟨⟨1, 1, 1, 1, 10, 1, 1⟩, ε, 1⟩ ⟨1, 1836, -1, 1, cellDensity ⟨1, 1, 1, 1, 10, 1, 1⟩ 1 1 0 0 ([0].map exCD),
      cellDensity ⟨1, 1, 1, 1, 10, 1, 1⟩ 1 1 0 0 ([1].map exCD), d⟩ ⟨s, 1/2, 0, 1, true⟩ exC exD = true := by
    unfold counted
    rw [if_pos le]
    dsimp only
    rw [core]
  have sgl : ∃ r, single .p12 ⟨⟨1, 1, 1, 1, 10, 1, 1⟩, ε, 1⟩ ⟨1, 1836, -1, 1, cellDensity ⟨1, 1, 1, 1, 10, 1, 1⟩ 1 1 0 0 ([0].map exCD),
      cellDensity ⟨1, 1, 1, 1, 10, 1, 1⟩ 1 1 0 0 ([1].map exCD), d⟩ ⟨s, 1/2, 0, 1, true⟩ exC exD = .ok r := by
    show ∃ r, collideP12 10 ε 1 1836 s (1/2) 1 0 true exC exD = .ok r
    unfold collideP12
    rw [if_neg (by norm_num [exD]), if_pos le, core]
    exact ⟨_, rfl⟩
  obtain ⟨r, sgl⟩ := sgl
  have r0 := hr 0
  refine ⟨(put (put exCD 0 r.1) 1 r.2, 1), ?_⟩
  unfold collideS
  show loop _ (visited (1 : ℝ) 1836 1 1 (fun _ _ => [0].map exCD) (fun _ _ => [1].map exCD)) _ = _
  rw [vis, loop_cons]
  unfold collideCellS
  show ((cellDebye ⟨1, 1, 1, 1, 10, 1, 1⟩ 1 1 1 1836 0 0 ([0].map exCD) ([1].map exCD) >>= _) >>= _) = _
  rw [deb, Res.ok_bind]
  show (loop _ (cellPairs float32 1 1) _ >>= _) = _
  rw [prs, loop_cons]
  show ((hitS _ _ _ (some 0) (some 1) _ >>= _) >>= _) = _
  unfold hitS hit
  dsimp only
  rw [r0]
  show ((((single .p12 ⟨⟨1, 1, 1, 1, 10, 1, 1⟩, ε, 1⟩ ⟨1, 1836, -1, 1, cellDensity ⟨1, 1, 1, 1, 10, 1, 1⟩ 1 1 0 0 ([0].map exCD),
      cellDensity ⟨1, 1, 1, 1, 10, 1, 1⟩ 1 1 0 0 ([1].map exCD), d⟩ ⟨s, 1/2, 0, 1, true⟩ exC exD >>= _) >>= _) >>= _) >>= _) = _
  rw [sgl]
  show Res.ok ((put (put exCD 0 r.1) 1 r.2, 1), if counted _ _ _ (exCD 0) (exCD 1) then _ else _) = _
  have c := cnt
  rw [show exC = exCD 0 from rfl, show exD = exCD 1 from rfl] at c
  refine congrArg Res.ok (Prod.ext rfl ?_)
  exact (if_pos c).trans rfl

example : ∃ P : Phys, collideP12All P (fun _ => ⟨2, 1/2, 0, 1, true⟩) ⟨1, 1836, -1, 1⟩ exPlace (fun _ _ => [0]) (fun _ _ => [1]) exCD = .ub ∧
    ∃ h', collideP12All P (fun _ => ⟨1, 1/2, 0, 1, true⟩) ⟨1, 1836, -1, 1⟩ exPlace (fun _ _ => [0]) (fun _ _ => [1]) exCD = .ok h' := by
  obtain ⟨P, h⟩ := ex_collides
  obtain ⟨s, e⟩ := h (fun _ => ⟨2, 1/2, 0, 1, true⟩) 2 (by norm_num) fun _ => rfl
  obtain ⟨s', e'⟩ := h (fun _ => ⟨1, 1/2, 0, 1, true⟩) 1 (by norm_num) fun _ => rfl
  refine ⟨P, C122_strong_fails P _ _ _ _ _ _ (fun _ => by norm_num) e (by simp), s'.1, ?_⟩
  unfold collideP12All
  rw [e', Res.ok_bind]
  unfold report
  norm_num

/-- Two particles of equal velocity and collisions of any strength. -/
example (P : Phys) (x : ℝ) {s : St} {l : List ℝ} (e : collideS P (fun _ => ⟨x, 1/2, 0, 1, true⟩) ⟨1, 1836, -1, 1⟩ exPlace (fun _ _ => [0]) (fun _ _ => [1]) (fun _ => exC) = .ok (s, l)) :
    collideP12All P (fun _ => ⟨x, 1/2, 0, 1, true⟩) ⟨1, 1836, -1, 1⟩ exPlace (fun _ _ => [0]) (fun _ _ => [1]) (fun _ => exC) = .ok fun _ => exC :=
  (C122_still P _ _ _ _ _ _ (fun _ _ _ _ _ _ => rfl) e).2

end Coll
end Pico
