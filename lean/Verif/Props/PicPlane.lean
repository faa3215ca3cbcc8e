import Verif.Spec.PicPlane
import Verif.Props.PicRest
import Verif.Props.PicBeam
import Verif.Props.PicAll

/-!
# C140 — a simulation without rotation stays without rotation

For every geometry, division, pusher and both schemes, with and without beams; nothing is assumed about the walls or the time step.
-/

set_option linter.unusedSimpArgs false
set_option linter.unusedVariables false
set_option linter.unusedSectionVars false

namespace Pico

/-- Whatever comes out has the property. -/
def Always {α : Type _} (P : α → Prop) (x : Res α) : Prop := ∀ a, x = .ok a → P a

namespace Always

variable {α β : Type _} {P : α → Prop} {Q : β → Prop}

theorem ok {a : α} (h : P a) : Always P (.ok a) := fun b e => by rw [← Res.ok.inj e]; exact h
theorem ub : Always P (.ub : Res α) := fun b e => nomatch e
theorem fatal : Always P (.fatal : Res α) := fun b e => nomatch e
theorem ite {c : Prop} {_ : Decidable c} {x y : Res α} (h : Always P x) (k : Always P y) : Always P (if c then x else y) := by
  split
  exacts [h, k]
theorem any {x : Res α} : Always (fun _ => True) x := fun _ _ => trivial

theorem bind {x : Res β} {f : β → Res α} (hx : Always Q x) (hf : ∀ b, Q b → Always P (f b)) : Always P (x >>= f) := by
  intro a e
  obtain ⟨b, e1, e2⟩ := Res.bind_ok e
  exact hf b (hx b e1) a e2

theorem loop {ι : Type _} {body : ι → α → Res α} (l : List ι) (h : ∀ i ∈ l, ∀ s, P s → Always P (body i s)) {s : α} (hs : P s) :
    Always P (Pico.loop body l s) := by
  induction l generalizing s with
  | nil => exact ok hs
  | cons i l ih => exact bind (h i List.mem_cons_self s hs) fun s' k => ih (fun j hj => h j (List.mem_cons_of_mem _ hj)) k

end Always

namespace Yee

open VB SMB

/-- The components that belong to a motion around the axis. -/
def swirl : Comp → Bool
  | .ep | .hr | .hz | .fr | .fz | .jp => true
  | _ => false

/-- They are zero. -/
def NoSwirl (m : Mem ℝ) : Prop := ∀ c, swirl c = true → ∀ x y, m c x y = 0

variable {m : Mem ℝ}

theorem rd0 (h : NoSwirl m) (p : Par ℝ) {c : Comp} (hc : swirl c = true) (i k : Int) : Always (fun a => a = 0) (rd p m c i k) := by
  unfold rd
  split
  · exact .ok (h c hc i k)
  · exact .ub

theorem put0 (h : NoSwirl m) (c : Comp) (i k : Int) {v : ℝ} (hv : swirl c = true → v = 0) : NoSwirl (put m c i k v) := by
  intro c' hc x y
  unfold put
  split
  · rename_i e
    exact hv (e.1 ▸ hc)
  · exact h c' hc x y

theorem upd0 (h : NoSwirl m) (p : Par ℝ) (c : Comp) (i k : Int) {f : ℝ → ℝ} (hf : swirl c = true → f 0 = 0) : Always NoSwirl (upd p m c i k f) := by
  unfold upd
  split
  · exact .ok (put0 h c i k fun e => by rw [h c e]; exact hf e)
  · exact .ub

theorem updN (h : NoSwirl m) (p : Par ℝ) (c : Comp) (i k : Int) {f : ℝ → ℝ} (hc : swirl c = false) : Always NoSwirl (upd p m c i k f) :=
  upd0 h p c i k fun e => by rw [hc] at e; cases e

theorem overlay00 (h : NoSwirl m) (p : Par ℝ) (cs : List Comp) : NoSwirl (overlay0 p cs m) := by
  intro c hc x y
  unfold overlay0
  split
  · rfl
  · exact h c hc x y

theorem relaxN (h : NoSwirl m) (p : Par ℝ) (c : Comp) (i k : Int) (ke kh x : ℝ) (hc : swirl c = false) : Always NoSwirl (relax p m c i k ke kh x) :=
  Always.bind (updN h p c i k hc) fun m h => updN h p c i k hc

theorem relax0 (h : NoSwirl m) (p : Par ℝ) (c : Comp) (i k : Int) (ke kh : ℝ) {x : ℝ} (hx : x = 0) : Always NoSwirl (relax p m c i k ke kh x) :=
  Always.bind (upd0 h p c i k fun _ => by simp) fun m h => upd0 h p c i k fun _ => by simp [hx]

theorem hWall0 (p : Par ℝ) (k : Nat) (h : NoSwirl m) : Always NoSwirl (hWallBody p k m) := by
  unfold hWallBody
  dsimp only
  refine .bind (rd0 h p rfl _ _) fun a ha => .bind (rd0 h p rfl _ _) fun b hb => .bind (rd0 h p rfl _ _) fun c hc => ?_
  refine .bind (upd0 h p _ _ _ fun _ => ?_) fun m h => upd0 h p _ _ _ fun _ => ?_
  all_goals simp [ha, hb, hc]

theorem hBody0 (p : Par ℝ) (q : Nat × Nat) (h : NoSwirl m) : Always NoSwirl (hBody p q m) := by
  unfold hBody
  dsimp only
  refine .bind (rd0 h p rfl _ _) fun a ha => .bind (rd0 h p rfl _ _) fun b hb => .bind (rd0 h p rfl _ _) fun c hc => ?_
  refine .bind (upd0 h p _ _ _ fun _ => by simp [ha, hb, hc]) fun m h => .bind (upd0 h p _ _ _ fun _ => by simp [ha, hb, hc]) fun m h => ?_
  refine .bind .any fun _ _ => .bind .any fun _ _ => .bind .any fun _ _ => .bind .any fun _ _ => .bind .any fun _ _ => ?_
  refine .bind (updN h p _ _ _ rfl) fun m h => .bind (updN h p _ _ _ rfl) fun m h => ?_
  refine .bind (rd0 h p rfl _ _) fun a ha => .bind (rd0 h p rfl _ _) fun b hb => .bind (rd0 h p rfl _ _) fun c hc => ?_
  exact .bind (upd0 h p _ _ _ fun _ => by simp [ha, hb, hc]) fun m h => upd0 h p _ _ _ fun _ => by simp [ha, hb, hc]

theorem calcH0 (p : Par ℝ) (h : NoSwirl m) : Always NoSwirl (calcH p m) := by
  unfold calcH
  dsimp only
  have h := overlay00 (overlay00 h p [.fr, .fp, .fz]) p [.hr, .hp, .hz]
  refine .bind (Q := NoSwirl) ?_ fun m h => .loop _ (fun q _ m h => hBody0 p q h) h
  split
  · exact .loop _ (fun k _ m h => hWall0 p k h) h
  · exact .ok h

theorem ezPart0 (p : Par ℝ) (i k : Nat) (eps sig : ℝ) (h : NoSwirl m) : Always NoSwirl (ezPart p i k eps sig m) := by
  unfold ezPart
  exact .bind .any fun _ _ => .bind .any fun _ _ => .bind .any fun _ _ => relaxN h p _ _ _ _ _ _ rfl

theorem eBody0 (p : Par ℝ) (q : Nat × Nat) (h : NoSwirl m) : Always NoSwirl (eBody p q m) := by
  unfold eBody
  dsimp only
  refine .bind .any fun _ _ => .bind .any fun _ _ => .bind .any fun _ _ => .bind .any fun _ _ => .bind .any fun _ _ => ?_
  refine .bind (relaxN h p _ _ _ _ _ _ rfl) fun m h => ?_
  refine .bind (rd0 h p rfl _ _) fun a ha => .bind (rd0 h p rfl _ _) fun b hb => .bind (rd0 h p rfl _ _) fun c hc =>
    .bind (rd0 h p rfl _ _) fun d hd => .bind (rd0 h p rfl _ _) fun e he => ?_
  exact .bind (relax0 h p _ _ _ _ _ (by simp [ha, hb, hc, hd, he])) fun m h => ezPart0 p _ _ _ _ h

theorem calcE0 (p : Par ℝ) (h : NoSwirl m) : Always NoSwirl (calcE p m) := by
  unfold calcE
  dsimp only
  have h := overlay00 h p [.er, .ep, .ez]
  refine .bind (Q := NoSwirl) ?_ fun m h => .bind (Q := NoSwirl) ?_ fun m h => .loop _ (fun q _ m h => eBody0 p q h) h
  · split
    · refine .loop _ (fun k _ m h => ?_) h
      unfold eAxisBody
      dsimp only
      refine .bind .any fun _ _ => .bind .any fun _ _ => .bind .any fun _ _ => .bind .any fun _ _ => .bind .any fun _ _ => ?_
      refine .bind (relaxN h p _ _ _ _ _ _ rfl) fun m h => .bind .any fun _ _ => .bind .any fun _ _ => relaxN h p _ _ _ _ _ _ rfl
    · exact .ok h
  · split
    · refine .loop _ (fun k _ m h => ?_) h
      unfold eLeftBody
      exact .bind .any fun _ _ => .bind .any fun _ _ => ezPart0 p _ _ _ _ h
    · exact .ok h

/-- The memories of the domains of a process. -/
def NoSwirls (R Z : Nat) (M : Solvers ℝ) : Prop := ∀ i j, i < R → j < Z → NoSwirl (M i j)

theorem overlayComp0 (P : Nat → Nat → Par ℝ) (R Z : Nat) (c : Comp) {M : Solvers ℝ} (H : NoSwirls R Z M) : Always (NoSwirls R Z) (overlayComp P R Z c M) := by
  intro N e
  unfold overlayComp at e
  obtain ⟨D, e1, e2⟩ := Res.bind_ok e
  obtain rfl := Res.ok.inj e2
  intro i j hi hj c' hc x y
  dsimp only
  unfold ofGrid
  split
  · rename_i k
    have G : InDoms R Z 0 (fun i j => toGrid (P i j) (M i j) c) (fun i j => toGrid (P i j) (M i j) c) :=
      fun i j hi hj => ⟨rfl, rfl, rfl, fun a b => by
        show M i j c _ _ = 0 * M i j c _ _
        rw [H i j hi hj c (k.1 ▸ hc), mul_zero]⟩
    obtain ⟨b, e', K⟩ := (pass_in R Z G).of_ok e1
    obtain rfl := Res.ok.inj (e1.symm.trans e')
    rw [(K i j hi hj).cell, zero_mul]
  · exact H i j hi hj c' hc x y

theorem each0 (R Z : Nat) {f : Nat → Nat → Mem ℝ → Res (Mem ℝ)} (hf : ∀ i j m, i < R → j < Z → NoSwirl m → Always NoSwirl (f i j m)) {M : Solvers ℝ}
    (H : NoSwirls R Z M) : Always (NoSwirls R Z) (each R Z f M) := by
  unfold each
  refine .loop _ (fun q hq M H => ?_) H
  have hq : q.1 < R ∧ q.2 < Z := by
    have := mem_idx2.mp hq
    omega
  refine .bind (hf q.1 q.2 _ hq.1 hq.2 (H q.1 q.2 hq.1 hq.2)) fun m K => .ok ?_
  intro i j hi hj
  dsimp only
  split
  · exact K
  · exact H i j hi hj

theorem solveMaxwell0 (P : Nat → Nat → Par ℝ) (R Z : Nat) {M : Solvers ℝ} (H : NoSwirls R Z M) : Always (NoSwirls R Z) (solveMaxwell P R Z M) := by
  unfold solveMaxwell
  refine .bind (each0 R Z (fun i j m _ _ h => calcE0 (P i j) h) H) fun M H => ?_
  refine .bind (.loop _ (fun c _ M H => overlayComp0 P R Z c H) H) fun M H => ?_
  refine .bind (each0 R Z (fun i j m _ _ h => calcH0 (P i j) h) H) fun M H => ?_
  exact .loop _ (fun c _ M H => overlayComp0 P R Z c H) H

/-! ### Depositions -/

/-- The operation leaves the components alone. -/
def FineOp : Op ℝ → Prop
  | .inc c _ _ v => swirl c = true → v = 0
  | .set c _ _ v => swirl c = true → v = 0

def Fine (l : List (Op ℝ)) : Prop := ∀ o ∈ l, FineOp o

theorem fine_nil : Fine [] := fun o h => absurd h List.not_mem_nil
theorem fine_cons {o : Op ℝ} {l : List (Op ℝ)} (h : FineOp o) (k : Fine l) : Fine (o :: l) := by
  intro x hx
  rcases List.mem_cons.mp hx with rfl | hx
  exacts [h, k x hx]
theorem fine_append {l k : List (Op ℝ)} (hl : Fine l) (hk : Fine k) : Fine (l ++ k) := by
  intro x hx
  rcases List.mem_append.mp hx with hx | hx
  exacts [hl x hx, hk x hx]

theorem runOps0 (g : Geom ℝ) {l : List (Op ℝ)} (hl : Fine l) (h : NoSwirl m) : Always NoSwirl (runOps g l m) := by
  unfold runOps
  refine .loop _ (fun o ho m h => ?_) h
  have f := hl o ho
  cases o with
  | inc c i k v =>
    show Always NoSwirl (if insideG g i k then .ok (put m c i k (m c i k + v)) else .ub)
    exact .ite (.ok (put0 h c i k fun e => by rw [h c e, f e, add_zero])) .ub
  | set c i k v =>
    show Always NoSwirl (if insideG g i k then .ok (put m c i k v) else .ub)
    exact .ite (.ok (put0 h c i k f)) .ub

theorem clear0 (g : Geom ℝ) (h : NoSwirl m) : NoSwirl (overlayClear g m) := by
  intro c hc x y
  unfold overlayClear
  split
  · rfl
  · exact h c hc x y

theorem reset0 (g : Geom ℝ) (h : NoSwirl m) : NoSwirl (resetCurrent g m) := by
  intro c hc x y
  unfold resetCurrent
  split
  · rfl
  · exact h c hc x y

theorem jr_fine (i k : Int) (v : ℝ) : FineOp (.inc .jr i k v) := fun e => nomatch e
theorem jz_fine (i k : Int) (v : ℝ) : FineOp (.inc .jz i k v) := fun e => nomatch e

theorem simple_fine (x : Ctx ℝ) (a b c d : ℝ) (i k : Int) (q : ℝ) : Fine (simple x a b c d i k q) := by
  unfold simple
  split
  · exact fine_nil
  · exact fine_cons (jz_fine _ _ _) (fine_cons (jz_fine _ _ _) (fine_cons (jr_fine _ _ _) (fine_cons (jr_fine _ _ _) fine_nil)))

theorem fine_ite {c : Prop} {_ : Decidable c} {l k : List (Op ℝ)} (hl : Fine l) (hk : Fine k) : Fine (if c then l else k) := by
  split
  exacts [hl, hk]

theorem switch_fine (x : Ctx ℝ) (p : VB.Part ℝ) (a b c d : Int) : Fine (switchOps x p a b c d) := by
  have s := fun a b c d i k q => simple_fine x a b c d i k q
  have t : ∀ {u v : Prop} {_ : Decidable u} {_ : Decidable v} {l k : List (Op ℝ)}, Fine l → Fine k → Fine (if u then l else if v then k else []) :=
    fun hl hk => fine_ite hl (fine_ite hk fine_nil)
  have three : ∀ {l k n : List (Op ℝ)}, Fine l → Fine k → Fine n → Fine (l ++ k ++ n) := fun h1 h2 h3 => fine_append (fine_append h1 h2) h3
  unfold switchOps
  dsimp only
  refine fine_ite (s _ _ _ _ _ _ _) (fine_ite (fine_ite ?_ (fine_ite ?_ fine_nil)) (fine_ite (fine_ite (fine_ite ?_ ?_) (fine_ite (fine_ite ?_ (fine_ite ?_ fine_nil)) fine_nil)) fine_nil))
  · unfold crossR
    exact fine_ite (fine_append (s _ _ _ _ _ _ _) (s _ _ _ _ _ _ _)) (fine_append (s _ _ _ _ _ _ _) (s _ _ _ _ _ _ _))
  · unfold crossZ
    exact fine_ite (fine_append (s _ _ _ _ _ _ _) (s _ _ _ _ _ _ _)) (fine_append (s _ _ _ _ _ _ _) (s _ _ _ _ _ _ _))
  · unfold crossUpRight
    exact t (three (s _ _ _ _ _ _ _) (s _ _ _ _ _ _ _) (s _ _ _ _ _ _ _)) (three (s _ _ _ _ _ _ _) (s _ _ _ _ _ _ _) (s _ _ _ _ _ _ _))
  · unfold crossUpLeft
    exact t (three (s _ _ _ _ _ _ _) (s _ _ _ _ _ _ _) (s _ _ _ _ _ _ _)) (three (s _ _ _ _ _ _ _) (s _ _ _ _ _ _ _) (s _ _ _ _ _ _ _))
  · unfold crossDownRight
    exact t (three (s _ _ _ _ _ _ _) (s _ _ _ _ _ _ _) (s _ _ _ _ _ _ _)) (three (s _ _ _ _ _ _ _) (s _ _ _ _ _ _ _) (s _ _ _ _ _ _ _))
  · unfold crossDownLeft
    exact t (three (s _ _ _ _ _ _ _) (s _ _ _ _ _ _ _) (s _ _ _ _ _ _ _)) (three (s _ _ _ _ _ _ _) (s _ _ _ _ _ _ _) (s _ _ _ _ _ _ _))

theorem axial_fine (x : Ctx ℝ) (a b c : ℝ) (i k l : Int) (q : ℝ) : Fine (strictAxial x a b c i k l q) := by
  unfold strictAxial
  dsimp only
  refine fine_append (fine_cons (fun e => nomatch e) (fine_cons (fun e => nomatch e) fine_nil)) ?_
  split_ifs
  all_goals first
    | exact fine_nil
    | exact fine_cons (jz_fine _ _ _) (fine_cons (jz_fine _ _ _) fine_nil)
    | exact fine_cons (jz_fine _ _ _) (fine_cons (jz_fine _ _ _) (fine_cons (jz_fine _ _ _) (fine_cons (jz_fine _ _ _) fine_nil)))

theorem radial_fine (x : Ctx ℝ) (a b c : ℝ) (i k l : Int) (q : ℝ) : Fine (strictRadial x a b c i k l q) := by
  unfold strictRadial
  dsimp only
  split_ifs
  all_goals first
    | exact fine_nil
    | exact fine_cons (jr_fine _ _ _) (fine_cons (jr_fine _ _ _) fine_nil)
    | exact fine_cons (jr_fine _ _ _) (fine_cons (jr_fine _ _ _) (fine_cons (jr_fine _ _ _) (fine_cons (jr_fine _ _ _) fine_nil)))

theorem rz_fine (x : Ctx ℝ) (p : VB.Part ℝ) : Always Fine (rzOps x p) := by
  unfold rzOps
  refine .bind .any fun _ _ => .bind .any fun _ _ => ?_
  refine .ite (.ok fine_nil) (.ite ?_ (.ok (switch_fine _ _ _ _ _ _)))
  unfold strictMotion
  refine .bind .any fun _ _ => .bind .any fun _ _ => .bind .any fun _ _ => .bind .any fun _ _ => .ok ?_
  exact fine_ite fine_nil (fine_ite (axial_fine _ _ _ _ _ _ _ _) (fine_ite (radial_fine _ _ _ _ _ _ _ _) fine_nil))

theorem azimuthal_fine (x : Ctx ℝ) {p : VB.Part ℝ} (h : p.vphi = 0) : Fine (azimuthalOps x p) := by
  unfold azimuthalOps
  dsimp only
  rw [h]
  repeat' refine fine_cons (fun _ => by simp) ?_
  exact fine_nil

theorem zigzag_fine (x : Ctx ℝ) {p : VB.Part ℝ} (h : p.vphi = 0) (a b c d e : Int) : Fine (ZigZag.cellOps x p a b c d e) := by
  unfold ZigZag.cellOps
  dsimp only
  rw [h]
  repeat' refine fine_cons ?_ ?_
  on_goal 13 => exact fine_nil
  all_goals first
    | exact jr_fine _ _ _
    | exact jz_fine _ _ _
    | exact fun _ => by simp

theorem dist0 {dist : Ctx ℝ → List (VB.Part ℝ) → Mem ℝ → Res (Mem ℝ)} (hz : Pic.Scheme dist) (x : Ctx ℝ) {qs : List (VB.Part ℝ)}
    (hq : ∀ q ∈ qs, q.vphi = 0) (h : NoSwirl m) : Always NoSwirl (dist x qs m) := by
  rcases hz with rfl | rfl
  · unfold VB.currentDistribution
    refine .bind (Q := NoSwirl) ?_ fun m h => ?_
    · unfold VB.azimuthal
      exact .loop _ (fun q hq' m h => runOps0 x.g (azimuthal_fine x (hq q hq')) h) (clear0 x.g h)
    · unfold VB.rz
      refine .loop _ (fun q hq' m h => ?_) (clear0 x.g h)
      unfold rzParticle
      exact .bind (rz_fine x q) fun ops f => runOps0 x.g f h
  · unfold ZigZag.currentDistribution
    refine .loop _ (fun q hq' m h => ?_) (clear0 x.g h)
    unfold ZigZag.particle
    refine .bind (Q := Fine) ?_ fun ops f => runOps0 x.g f h
    unfold ZigZag.particleOps
    exact .bind .any fun _ _ => .bind .any fun _ _ => .bind .any fun _ _ => .bind .any fun _ _ => .bind .any fun _ _ => .ok (zigzag_fine x (hq q hq') _ _ _ _ _)

theorem solveCurrent0 {dist : Ctx ℝ → List (VB.Part ℝ) → Mem ℝ → Res (Mem ℝ)} (hz : Pic.Scheme dist) (p : Par ℝ) (R Z : Nat) (e : Consts ℝ)
    {ps : Nat → Nat → List (VB.Part ℝ)} (hq : ∀ i j, i < R → j < Z → ∀ q ∈ ps i j, q.vphi = 0) {M : Solvers ℝ} (H : NoSwirls R Z M) :
    Always (NoSwirls R Z) (solveCurrent dist p R Z e ps M) := by
  unfold solveCurrent
  refine .bind (Q := NoSwirls R Z) ?_ fun M H => .loop _ (fun c _ M H => overlayComp0 _ R Z c H) H
  exact each0 R Z (fun i j m hi hj h => dist0 hz _ (hq i j hi hj) (reset0 _ h)) H

/-! ### Fields at particles -/

theorem rdG0 (h : NoSwirl m) (g : Geom ℝ) {c : Comp} (hc : swirl c = true) (i k : Int) : Always (fun a => a = 0) (Interp.rdG g m c i k) := by
  unfold Interp.rdG
  split
  · exact .ok (h c hc i k)
  · exact .ub

theorem quot0 {a b : ℝ} (h : a = 0) : Always (fun x => x = 0) (Interp.quot a b) := by
  unfold Interp.quot
  split
  · exact .ub
  · exact .ok (by rw [h, zero_div])

theorem four0 (h : NoSwirl m) (pi : ℝ) (g : Geom ℝ) {c : Comp} (hc : swirl c = true) (i k : Int) (a b d e f u v : ℝ) :
    Always (fun q => q = (0, 0, 0, 0)) (Interp.four pi g m c i k a b d e f u v) := by
  unfold Interp.four
  dsimp only
  refine .bind (rdG0 h g hc _ _) fun _ h1 => .bind (quot0 (by rw [h1, zero_mul])) fun _ k1 => ?_
  refine .bind (rdG0 h g hc _ _) fun _ h2 => .bind (quot0 (by rw [h2, zero_mul])) fun _ k2 => ?_
  refine .bind (rdG0 h g hc _ _) fun _ h3 => .bind (quot0 (by rw [h3, zero_mul])) fun _ k3 => ?_
  refine .bind (rdG0 h g hc _ _) fun _ h4 => .bind (quot0 (by rw [h4, zero_mul])) fun _ k4 => .ok ?_
  rw [k1, k2, k3, k4]

theorem getE0 (h : NoSwirl m) (pi : ℝ) (g : Geom ℝ) (r z : ℝ) : Always (fun e => e.y = 0) (Interp.getE pi g m r z) := by
  unfold Interp.getE
  refine .bind .any fun _ _ => .bind .any fun _ _ => .bind (Q := fun q => q = (0, 0, 0, 0)) ?_ fun q hq => .ok (by simp [hq])
  unfold Interp.wholeWhole
  exact .bind .any fun _ _ => .bind .any fun _ _ => four0 h pi g rfl _ _ _ _ _ _ _ _ _

theorem getH0 (h : NoSwirl m) (pi : ℝ) (g : Geom ℝ) (r z : ℝ) : Always (fun b => b.x = 0 ∧ b.z = 0) (Interp.getH pi g m r z) := by
  unfold Interp.getH
  refine .bind (Q := fun q => q = (0, 0, 0, 0)) ?_ fun q hq => .bind (Q := fun q => q = (0, 0, 0, 0)) ?_ fun q' hq' => .bind .any fun _ _ => .ok ?_
  · unfold Interp.halfWhole
    exact .bind .any fun _ _ => .bind .any fun _ _ => four0 h pi g rfl _ _ _ _ _ _ _ _ _
  · unfold Interp.wholeHalf
    exact .bind .any fun _ _ => .bind .any fun _ _ => four0 h pi g rfl _ _ _ _ _ _ _ _ _
  · rw [hq, hq']
    simp [Interp.sum4]

end Yee

namespace Pusher

theorem rotate0 {b v : Vec3 ℝ} (h1 : b.x = 0) (h2 : b.z = 0) (h3 : v.y = 0) : (rotate b v).y = 0 := by
  unfold rotate
  simp [h1, h2, h3]

theorem borisRel0 (P : Par) {e b v : Vec3 ℝ} (he : e.y = 0) (h1 : b.x = 0) (h2 : b.z = 0) (hv : v.y = 0) : Always (fun w => w.y = 0) (borisRel P e b v) := by
  unfold borisRel
  dsimp only
  refine .bind .any fun g _ => .ok ?_
  show _ * _ = (0 : ℝ)
  refine mul_eq_zero_of_left ?_ _
  show (rotate _ _).y + _ = 0
  rw [rotate0]
  · simp [Vec3.smul, he]
  · simp [Vec3.smul, h1]
  · simp [Vec3.smul, h2]
  · simp [Vec3.smul, Vec3.add, Vec3.zip, hv, he]

theorem borisClassic0 (P : Par) {e b v : Vec3 ℝ} (he : e.y = 0) (h1 : b.x = 0) (h2 : b.z = 0) (hv : v.y = 0) : (borisClassic P e b v).y = 0 := by
  unfold borisClassic
  dsimp only
  show (rotate _ _).y + _ = 0
  rw [rotate0]
  · simp [Vec3.smul, he]
  · simp [Vec3.smul, h1]
  · simp [Vec3.smul, h2]
  · simp [Vec3.smul, Vec3.add, Vec3.zip, hv, he]

/-- No pusher gives a particle an azimuthal velocity in fields without rotation. -/
theorem pushV0 (kind : Kind) (P : Par) (junk : Bool) {e b v : Vec3 ℝ} (he : e.y = 0) (h1 : b.x = 0) (h2 : b.z = 0) (hv : v.y = 0) :
    Always (fun w => w.y = 0) (pushV kind P junk e b v) := by
  cases kind with
  | boris => exact .ok (borisClassic0 P he h1 h2 hv)
  | borisRelativistic => exact borisRel0 P he h1 h2 hv
  | borisAdaptive =>
    show Always _ (borisAdaptive P junk e b v)
    unfold borisAdaptive
    dsimp only
    split
    · split
      · exact borisRel0 P he h1 h2 hv
      · exact .ok (borisClassic0 P he h1 h2 hv)
    · split
      · exact borisRel0 P he h1 h2 hv
      · exact .ok (borisClassic0 P he h1 h2 hv)
  | vay =>
    show Always _ (vay P e b v)
    unfold vay
    dsimp only
    refine .bind .any fun g _ => .bind .any fun a _ => .ok ?_
    simp [Vec3.smul, Vec3.add, Vec3.zip, Vec3.dot, he, h1, h2, hv]
  | hc =>
    show Always _ (hc P e b v)
    unfold hc
    dsimp only
    refine .bind .any fun g _ => .bind .any fun a _ => .ok ?_
    simp [Vec3.smul, Vec3.add, Vec3.zip, Vec3.mulV, hcRotate, he, h1, h2, hv]

theorem push0 {m : Yee.Mem ℝ} (h : Yee.NoSwirl m) (kind : Kind) (P : Par) (junk : Bool) (pi : ℝ) (g : Geom ℝ) (r z : ℝ) {v : Vec3 ℝ} (hv : v.y = 0) :
    Always (fun w => w.y = 0) (push kind P junk pi g m r z v) := by
  unfold push
  exact .bind (Yee.getE0 h pi g r z) fun e he => .bind (Yee.getH0 h pi g r z) fun b hb => pushV0 kind P junk he hb.1 hb.2 hv

end Pusher

namespace SMB

/-- The hand-over lists no particle that was not listed. -/
theorem collect_tags (g : Geo) {P : Prt → Prop} {D D' : Doms} (hD : ∀ i j, i < g.domR → j < g.domZ → ∀ sp ∈ D i j, ∀ o ∈ sp.parts, P o)
    (e : collect g D = .ok D') : ∀ i j, i < g.domR → j < g.domZ → ∀ sp ∈ D' i j, ∀ o ∈ sp.parts, P o := by
  let G : Doms → Prop := fun D => ∀ i j, i < g.domR → j < g.domZ → ∀ sp ∈ D i j, ∀ o ∈ sp.parts, P o
  have set : ∀ {D : Doms} {i j : Nat} {v : List Sp}, G D → (∀ sp ∈ v, ∀ o ∈ sp.parts, P o) → G (setDom D i j v) := by
    intro D i j v hD hv a b ha hb sp hsp
    unfold setDom at hsp
    split at hsp
    · exact hv sp hsp
    · exact hD a b ha hb sp hsp
  have main : Always G (collect g D) := by
    unfold collect
    refine .loop _ (fun q hq D hD => ?_) hD
    have hq := mem_sweep.mp hq
    unfold collectDom
    refine .loop _ (fun k _ D hD => ?_) hD
    unfold collectSp
    split
    · exact .ub
    · rename_i sp hs
      have hsp : sp ∈ D q.1 q.2 := List.mem_of_getElem? hs
      dsimp only
      refine .bind (Q := fun s : Doms × List Prt => G s.1 ∧ ∀ o ∈ s.2, P o) ?_ fun s hs => .ok (set hs.1 ?_)
      · refine .loop _ (fun o ho s hs => ?_) ⟨hD, fun o ho => absurd ho List.not_mem_nil⟩
        have po : P o := hD q.1 q.2 hq.1 hq.2 sp hsp o ho
        unfold collectOne
        intro s' e
        obtain ⟨a, e1, e2⟩ := Res.bind_ok e
        cases a with
        | keep =>
          obtain rfl := Res.ok.inj e2
          refine ⟨hs.1, fun x hx => ?_⟩
          rcases List.mem_append.mp hx with hx | hx
          · exact hs.2 x hx
          · exact List.mem_singleton.mp hx ▸ po
        | drop =>
          obtain rfl := Res.ok.inj e2
          exact hs
        | move di dj =>
          obtain rfl := Res.ok.inj e2
          have hm : di < g.domR ∧ dj < g.domZ := by
            unfold classify at e1
            dsimp only at e1
            split_ifs at e1
            all_goals first
              | cases e1; assumption
              | cases e1
          refine ⟨set hs.1 ?_, hs.2⟩
          intro t ht x hx
          unfold pushTo at ht
          obtain ⟨t', ht', rfl⟩ := List.mem_map.mp ht
          split at hx
          · rcases List.mem_append.mp hx with hx | hx
            · exact hs.1 di dj hm.1 hm.2 t' ht' x hx
            · exact List.mem_singleton.mp hx ▸ po
          · exact hs.1 di dj hm.1 hm.2 t' ht' x hx
      · intro t ht x hx
        rcases List.mem_or_eq_of_mem_set ht with ht | rfl
        · exact hs.1 q.1 q.2 hq.1 hq.2 t ht x hx
        · exact hs.2 x hx
  exact main D' e

end SMB

namespace Part

/-- In the plane and not moving around the axis. -/
def Plane (a : Part ℝ) : Prop := a.posPhi = 0 ∧ a.velPhi = 0

theorem backPos0 (dt : ℝ) {a : Part ℝ} (h : Plane a) : Always (fun b => Plane b ∧ b.sin = 0) (backPos (a.dumpOld.move dt)) := by
  unfold backPos
  dsimp only
  split
  · exact .ub
  · refine .ok ⟨⟨rfl, h.2⟩, ?_⟩
    show (a.posPhi + a.velPhi * dt) / _ = (0 : ℝ)
    rw [h.1, h.2, zero_mul, add_zero, zero_div]

theorem backVel0 {a : Part ℝ} (h : Plane a ∧ a.sin = 0) : Plane (backVel a) := by
  refine ⟨h.1.1, ?_⟩
  unfold backVel
  show a.sin * a.velR + _ * a.velPhi = 0
  rw [h.2, h.1.2, zero_mul, mul_zero, add_zero]

theorem bind0 (g : Geom ℝ) {a : Part ℝ} (h : Plane a) : Always Plane (bindCell g a) := by
  unfold bindCell
  exact .bind .any fun _ _ => .bind .any fun _ _ => .ok h

theorem advance0 {dt : ℝ} {g : Geom ℝ} {w : Walls} {a b : Part ℝ} (h : Plane a) (k : Advance dt g w a b) : Plane b := by
  obtain ⟨c, d, e1, ⟨s, _, rfl⟩, e3⟩ := k
  obtain ⟨k1, k2⟩ := backPos0 dt h c e1
  refine bind0 g (backVel0 ?_) b e3
  exact ⟨⟨k1.1, k1.2⟩, k2⟩

end Part

namespace Pic

open SMB Yee

theorem beamAdvance0 {dt : ℝ} {g : Geom ℝ} {w : Part.Walls} {a b : Part ℝ} (h : a.Plane) (k : BeamAdvance dt g w a b) : b.Plane := by
  obtain ⟨c, e1, e3⟩ := k
  refine Part.bind0 g (Part.backVel0 ?_) b e3
  have := Part.backPos0 dt h c e1
  unfold Part.beamReflect
  split
  · exact this
  · exact this

theorem noSwirls_iff {R Z : Nat} {S : State} : Unrotating R Z S ↔
    (∀ i j, i < R → j < Z → ∀ sp ∈ S.D i j, ∀ o ∈ sp.parts, (S.heap o.tag).Plane) ∧ NoSwirls R Z S.M := by
  constructor
  · intro h
    refine ⟨h.parts, fun i j hi hj c hc x y => ?_⟩
    cases c
    all_goals try cases hc
    · exact h.ephi i j hi hj x y
    · exact (h.hr i j hi hj x y).1
    · exact (h.hz i j hi hj x y).1
    · exact (h.hr i j hi hj x y).2
    · exact (h.hz i j hi hj x y).2
    · exact h.jphi i j hi hj x y
  · rintro ⟨h, k⟩
    exact ⟨h, fun i j hi hj => k i j hi hj _ rfl, fun i j hi hj x y => ⟨k i j hi hj _ rfl x y, k i j hi hj _ rfl x y⟩,
      fun i j hi hj x y => ⟨k i j hi hj _ rfl x y, k i j hi hj _ rfl x y⟩, fun i j hi hj => k i j hi hj _ rfl⟩

/-- A step with any motion of the particles that does not make them rotate. -/
theorem plane_core {E : Env} (hz : Scheme E.dist) {S S' : State} (U : Unrotating E.domR E.domZ S) {M1 : Solvers ℝ}
    (e1 : solveMaxwell (domPar E.p E.domR E.domZ) E.domR E.domZ S.M = .ok M1)
    (mv : NoSwirls E.domR E.domZ M1 → ∀ i j, i < E.domR → j < E.domZ → ∀ sp ∈ S.D i j, ∀ o ∈ sp.parts, (S'.heap o.tag).Plane)
    (e2 : collect (geoOf E.p E.domR E.domZ) (cellsOf S'.heap S.D) = .ok S'.D)
    (e3 : solveCurrent E.dist E.p E.domR E.domZ E.e (depositsOf E S'.heap S'.D) M1 = .ok S'.M) : Unrotating E.domR E.domZ S' := by
  have U := noSwirls_iff.mp U
  have N := solveMaxwell0 _ _ _ U.2 M1 e1
  have L : ∀ i j, i < E.domR → j < E.domZ → ∀ sp ∈ S'.D i j, ∀ o ∈ sp.parts, (S'.heap o.tag).Plane := by
    refine collect_tags (geoOf E.p E.domR E.domZ) (P := fun o => (S'.heap o.tag).Plane) (fun i j hi hj sp hsp o ho => ?_) e2
    unfold cellsOf at hsp
    obtain ⟨sp', h1, rfl⟩ := List.mem_map.mp hsp
    obtain ⟨o', h2, rfl⟩ := List.mem_map.mp ho
    exact mv N i j hi hj sp' h1 o' h2
  refine noSwirls_iff.mpr ⟨L, solveCurrent0 hz E.p E.domR E.domZ E.e (fun i j hi hj q hq => ?_) N _ e3⟩
  obtain ⟨sp, hsp, hq⟩ := List.mem_flatMap.mp hq
  obtain ⟨o, ho, rfl⟩ := List.mem_map.mp hq
  exact (L i j hi hj sp hsp o ho).2

/-- C140, one step without beams. -/
theorem C140_step {E : Env} (hz : Scheme E.dist) {S S' : State} (U : Unrotating E.domR E.domZ S) (s : Step E S S') : Unrotating E.domR E.domZ S' := by
  obtain ⟨M1, e1, g1, g2, g3, g4⟩ := s
  refine plane_core hz U e1 (fun N i j hi hj sp hsp o ho => ?_) g3 g4
  obtain ⟨junk, v, p, a⟩ := g1 i j hi hj sp hsp o ho
  have h := U.parts i j hi hj sp hsp o ho
  exact Part.advance0 (a := setVel (S.heap o.tag) v) ⟨h.1, Pusher.push0 (N i j hi hj) _ _ _ _ _ _ _ (v := vel (S.heap o.tag)) h.2 v p⟩ a

/-- **C140**: a simulation without rotation stays without rotation, as long as it runs: for every pusher, both schemes, every geometry, every
division and every time step, every particle keeps out of azimuthal motion, and the azimuthal electric field, the radial and the axial
magnetic field and the azimuthal current stay exactly zero. -/
theorem C140_run {E : Env} (hz : Scheme E.dist) {S T : State} (U : Unrotating E.domR E.domZ S) {n : Nat} (r : Run E S n T) :
    Unrotating E.domR E.domZ T := by
  induction r with
  | start => exact U
  | step _ s ih => exact C140_step hz ih s

/-! ### Beams -/

theorem injected_plane {pi dt : ℝ} {b : Beam.Conf ℝ} {g : Geom ℝ} {t : ℝ} {rnd : Nat → ℝ × ℝ} {n n' : Nat} {l : List (Part ℝ)}
    (e : Beam.manage pi dt b g t rnd ⟨n, []⟩ = .ok ⟨n', l⟩) : ∀ a ∈ l, a.Plane := by
  have none : ∀ a ∈ ([] : List (Part ℝ)), a.Plane := fun a ha => absurd ha List.not_mem_nil
  have main : Always (fun s : Beam.St ℝ => ∀ a ∈ s.particles, a.Plane) (Beam.manage pi dt b g t rnd ⟨n, []⟩) := by
    unfold Beam.manage Beam.inject
    refine .ite (.ite (.bind (Q := fun s : Beam.St ℝ => ∀ a ∈ s.particles, a.Plane) (.ite ?_ (.ok none)) fun s hs => .ok ?_) (.ok none)) (.ok none)
    · intro s e
      obtain ⟨new, e1, e2⟩ := Res.bind_ok e
      obtain rfl := Res.ok.inj e2
      intro a ha
      obtain ⟨x, hx, ex⟩ := collect_mem e1 (List.mem_append.mp ha |>.resolve_left List.not_mem_nil)
      obtain ⟨k, _, rfl⟩ := List.mem_map.mp hx
      unfold Beam.injectOne at ex
      obtain ⟨_, _, ex⟩ := Res.bind_ok ex
      obtain ⟨_, _, ex⟩ := Res.bind_ok ex
      obtain rfl := Res.ok.inj ex
      exact ⟨rfl, rfl⟩
    · split
      · exact hs
      · exact hs
  exact main _ e

theorem injects_plane {B : BEnv} {t : ℝ} {rnd : Nat → Nat → Nat → Nat → ℝ × ℝ} {new : Nat → Nat → Nat → List Nat} {S S1 : BState}
    (U : Unrotating B.env.domR B.env.domZ S.s) (I : Injects B t rnd new S S1) : Unrotating B.env.domR B.env.domZ S1.s := by
  obtain ⟨I1, I2, _, _, I5, I6, eD, eM⟩ := I
  have U := noSwirls_iff.mp U
  refine noSwirls_iff.mpr ⟨?_, eM ▸ U.2⟩
  have fresh : ∀ i j id, i < B.env.domR → j < B.env.domZ → ∀ a ∈ new i j id, (S1.s.heap a).Plane := by
    intro i j id hi hj a ha
    by_cases c : B.isBeam id
    · obtain ⟨b, hb, rfl⟩ := c
      exact injected_plane (I1 i j hi hj b hb) _ (List.mem_map_of_mem ha)
    · rw [I2 i j id c] at ha
      exact absurd ha List.not_mem_nil
  intro i j hi hj sp hsp o ho
  rw [eD] at hsp
  obtain ⟨sp', h', rfl⟩ := List.mem_map.mp hsp
  rcases List.mem_append.mp ho with ho | ho
  · rw [I6 o.tag fun i' j' id hi' hj' k => I5 i' j' hi' hj' id _ k i j hi hj sp' h' o ho rfl]
    exact U.1 i j hi hj sp' h' o ho
  · obtain ⟨a, ha, rfl⟩ := List.mem_map.mp ho
    exact fresh i j _ hi hj a ha

/-- C140, one step with beams. -/
theorem C140_beam_step {B : BEnv} (hz : Scheme B.env.dist) {t : ℝ} {S T : BState} (U : Unrotating B.env.domR B.env.domZ S.s) (s : BStep B t S T) :
    Unrotating B.env.domR B.env.domZ T.s := by
  obtain ⟨rnd, new, S1, _, I, ⟨M1, e1, g1, g2, g3, g4⟩, _⟩ := s
  have U := injects_plane U I
  refine plane_core hz U e1 (fun N i j hi hj sp hsp o ho => ?_) g3 g4
  obtain ⟨junk, v, p, a1, a2⟩ := g1 i j hi hj sp hsp o ho
  have h := U.parts i j hi hj sp hsp o ho
  have k : (setVel (S1.s.heap o.tag) v).Plane := ⟨h.1, Pusher.push0 (N i j hi hj) _ _ _ _ _ _ _ (v := vel (S1.s.heap o.tag)) h.2 v p⟩
  by_cases c : B.isBeam sp.id
  · exact beamAdvance0 k (a1 c)
  · exact Part.advance0 k (a2 c)

/-- **C140** with beams, whatever random numbers they draw: beams neither rotate nor set anything in rotation. -/
theorem C140_beams {B : BEnv} (hz : Scheme B.env.dist) {S T : BState} (U : Unrotating B.env.domR B.env.domZ S.s) {n : Nat} (r : BRun B S n T) :
    Unrotating B.env.domR B.env.domZ T.s := by
  induction r with
  | start => exact U
  | step _ s ih => exact C140_beam_step hz ih s

/-- C140 from the configuration on: beams that are shot into a plasma of temperature zero.  No run ever shows rotation, in any number of domains. -/
theorem C140_cold {X : Setup} (h : X.Sane) (hz : Scheme X.env.dist) (h0 : ∀ s ∈ X.species, s.temperature = 0) {B : BEnv} (e : B.env = X.env)
    {S T : BState} (st : Starts X S.s) {n : Nat} (r : BRun B S n T) : Unrotating X.env.domR X.env.domZ T.s := by
  have R := start_rest h h0 st
  have A := C110_start_partial h (fun s hs => cold_zero h (h0 s hs)) st
  have U : Unrotating X.env.domR X.env.domZ S.s := noSwirls_iff.mpr
    ⟨fun i j hi hj sp hsp o ho => ⟨(A.place i j hi hj sp hsp o ho).phi, congrArg Vec3.y (R.still i j hi hj sp hsp o ho)⟩,
      fun i j hi hj c hc => R.fields i j hi hj c (by rintro rfl; cases hc) (by rintro rfl; cases hc)⟩
  have := C140_beams (B := B) (by rw [e]; exact hz) (by rw [e]; exact U) r
  rwa [e] at this

/-! ### External fields -/

/-- A push that sees the sum of two fields without rotation. -/
theorem pushExt0 {m x : Mem ℝ} (h : NoSwirl m) (k : ∀ u w, x .ep u w = 0 ∧ x .fr u w = 0 ∧ x .fz u w = 0) (kind : Pusher.Kind) (P : Pusher.Par) (junk : Bool) (pi : ℝ)
    (g : Geom ℝ) (r z : ℝ) {v : Vec3 ℝ} (hv : v.y = 0) : Always (fun w => w.y = 0) (pushExt kind P junk pi g m x r z v) := by
  -- the components that are not read do not matter
  have k' : NoSwirl (fun c u w => if c = .hr ∨ c = .hz ∨ c = .jp then 0 else x c u w) := by
    intro c hc u w
    cases c
    all_goals first | cases hc | skip
    all_goals first | exact (k u w).1 | exact (k u w).2.1 | exact (k u w).2.2 | rfl
  have rd : ∀ {c : Yee.Comp}, (c ≠ .hr ∧ c ≠ .hz ∧ c ≠ .jp) → ∀ i k, Interp.rdG g (fun c u w => if c = .hr ∨ c = .hz ∨ c = .jp then 0 else x c u w) c i k = Interp.rdG g x c i k := by
    intro c hc i k
    unfold Interp.rdG
    simp only [if_neg (show ¬ (c = .hr ∨ c = .hz ∨ c = .jp) by tauto)]
  have eE : Interp.getE pi g (fun c u w => if c = .hr ∨ c = .hz ∨ c = .jp then 0 else x c u w) r z = Interp.getE pi g x r z := by
    unfold Interp.getE Interp.halfWhole Interp.wholeHalf Interp.wholeWhole Interp.four
    simp only [rd (c := .er) (by decide), rd (c := .ep) (by decide), rd (c := .ez) (by decide)]
  have eH : Interp.getH pi g (fun c u w => if c = .hr ∨ c = .hz ∨ c = .jp then 0 else x c u w) r z = Interp.getH pi g x r z := by
    unfold Interp.getH Interp.halfWhole Interp.wholeHalf Interp.halfHalf Interp.four
    simp only [rd (c := .fr) (by decide), rd (c := .fp) (by decide), rd (c := .fz) (by decide)]
  unfold pushExt
  rw [← eE, ← eH]
  refine .bind (getE0 h pi g r z) fun e he => .bind (getH0 h pi g r z) fun b hb => .bind (getE0 k' pi g r z) fun e' he' => .bind (getH0 k' pi g r z) fun b' hb' => ?_
  refine Pusher.pushV0 kind P junk ?_ ?_ ?_ hv
  · simp [Vec3.add, Vec3.zip, he, he']
  · simp [Vec3.add, Vec3.zip, hb.1, hb'.1]
  · simp [Vec3.add, Vec3.zip, hb.2, hb'.2]

/-- C140, one step of a build without collisions, with beams and external fields; the external fields that count are those the step applies. -/
theorem C140_all_step {G : GEnv} (hz : Scheme G.full.env.dist) (hc : G.full.coll = none) {t : ℝ} {S T : GState}
    (U : Unrotating G.full.env.domR G.full.env.domZ S.f.s) (X : PlaneExternal G T) (s : GStep G t S T) : Unrotating G.full.env.domR G.full.env.domZ T.f.s := by
  obtain ⟨rnd, new, S1, M1, H, _, I, ⟨h1, e1, s2, s3, s4⟩, ⟨g1, g2, g3, g4⟩, _⟩ := s
  have U : Unrotating G.full.env.domR G.full.env.domZ S1.s := injects_plane (B := G.b) (S := S.b) U I
  refine plane_core hz U e1 (fun N i j hi hj sp hsp o ho => ?_) g3 g4
  have h := U.parts i j hi hj sp hsp o ho
  have eH : H i j = h1 := by
    have := s4 i j hi hj
    unfold Full.collided at this
    rw [hc] at this
    exact this.1
  obtain ⟨v, ⟨junk, p⟩, hv⟩ := s3 i j hi hj sp hsp o ho
  have y : v.y = 0 := by
    rcases X with X | X
    · rw [X] at p
      exact Pusher.push0 (N i j hi hj) _ _ _ _ _ _ _ (v := vel (S1.s.heap o.tag)) h.2 v p
    · split at p
      · exact Pusher.push0 (N i j hi hj) _ _ _ _ _ _ _ (v := vel (S1.s.heap o.tag)) h.2 v p
      · exact pushExt0 (N i j hi hj) (X i j hi hj) _ _ _ _ _ _ _ (v := vel (S1.s.heap o.tag)) h.2 v p
  have k : (H i j o.tag).Plane := by
    rw [eH, hv]
    exact ⟨h.1, y⟩
  obtain ⟨a1, a2⟩ := g1 i j hi hj sp hsp o ho
  by_cases c : G.b.isBeam sp.id
  · exact beamAdvance0 k (a1 c)
  · exact Part.advance0 k (a2 c)

/-- **C140** for builds without collisions, with beams and with external fields that lie in the plane. -/
theorem C140_all {G : GEnv} (hz : Scheme G.full.env.dist) (hc : G.full.coll = none) {S T : GState} (U : Unrotating G.full.env.domR G.full.env.domZ S.f.s)
    {n : Nat} (X : ∀ k V, k ≤ n → GRun G S k V → PlaneExternal G V) (r : GRun G S n T) : Unrotating G.full.env.domR G.full.env.domZ T.f.s := by
  induction r with
  | start => exact U
  | step r' s ih => exact C140_all_step hz hc (ih fun k V hk => X k V (by omega)) (X _ _ le_rfl (.step r' s)) s

/-- The external grids lie in the plane. -/
def Flat (x : Mem ℝ) : Prop := ∀ c : Yee.Comp, c = .ep ∨ c = .fr ∨ c = .fz → ∀ u w, x c u w = 0

theorem flat_iff {x : Mem ℝ} : Flat x ↔ ∀ u w, x .ep u w = 0 ∧ x .fr u w = 0 ∧ x .fz u w = 0 := by
  constructor
  · exact fun h u w => ⟨h _ (.inl rfl) u w, h _ (.inr (.inl rfl)) u w, h _ (.inr (.inr rfl)) u w⟩
  · rintro h c (rfl | rfl | rfl) u w
    exacts [(h u w).1, (h u w).2.1, (h u w).2.2]

theorem setAll_flat (p : Yee.Par ℝ) (vs : List (Yee.Comp × ℝ)) (hv : ∀ v ∈ vs, v.1 = .ep ∨ v.1 = .fr ∨ v.1 = .fz → v.2 = 0) (i k : Nat) {x : Mem ℝ} (h : Flat x) :
    Always Flat (Ext.setAll p vs i k x) := by
  unfold Ext.setAll
  refine .loop _ (fun v hv' x h => ?_) h
  unfold upd
  refine .ite (.ok ?_) .ub
  intro c hc u w
  unfold put
  split
  · rename_i e
    exact hv v hv' (e.1 ▸ hc)
  · exact h c hc u w

theorem homZ_flat (p : Yee.Par ℝ) (a : ℝ) {x : Mem ℝ} (h : Flat x) : Always Flat (Ext.homZ p .er .ep .ez a x) := by
  unfold Ext.homZ
  dsimp only
  refine .bind (Q := Flat) (.ite (.loop _ (fun k _ x h => setAll_flat p _ ?_ _ _ h) h) (.ok h)) fun x h =>
    .bind (Q := Flat) (.ite (.loop _ (fun k _ x h => setAll_flat p _ ?_ _ _ h) h) (.ok h)) fun x h => .loop _ (fun k _ x h => setAll_flat p _ ?_ _ _ h) h
  all_goals simp

theorem clear_flat (p : Yee.Par ℝ) (cs : List Yee.Comp) {x : Mem ℝ} (h : Flat x) : Flat (Ext.clear p cs x) := by
  intro c hc u w
  unfold Ext.clear
  split
  · rfl
  · exact h c hc u w

/-- Every profile but the homogeneous axial magnetic field keeps the external fields in the plane. -/
theorem apply_flat (p : Yee.Par ℝ) (o : Ext.Obj ℝ) (hm : o.m ≠ 3) {x : Mem ℝ} (h : Flat x) : Always Flat (Ext.apply p o x) := by
  unfold Ext.apply
  refine .bind (Q := Flat) ?_ fun x h => ?_
  · split
    all_goals first
      | exact .ok h
      | exact .fatal
      | skip
    unfold Ext.setEl
    exact .bind .any fun a _ => homZ_flat p a (clear_flat p _ (clear_flat p _ h))
  · split
    all_goals first
      | exact .ok h
      | exact .fatal
      | exact absurd (by assumption) hm

theorem construct_m {el mag : String} {ep mp : List ℝ} {o : Ext.Obj ℝ} (h : Ext.construct el mag ep mp = .ok o) (hm : mag ≠ "const_z") : o.m ≠ 3 := by
  unfold Ext.construct at h
  obtain ⟨a, e1, h⟩ := Res.bind_ok h
  obtain ⟨b, e2, h⟩ := Res.bind_ok h
  injection h with h
  subst h
  show b ≠ 3
  rintro rfl
  unfold Ext.mProfile at e2
  split_ifs at e2 <;> first | contradiction | (injection e2 with e2; omega)

/-- **C140** from the options on: in a build without collisions, with beams and with every combination of configured external profiles but
the axial magnetic one, started with external grids as the constructor leaves them (zero), no run ever shows rotation. -/
theorem C140_external {G : GEnv} (hz : Scheme G.full.env.dist) (hc : G.full.coll = none) {el mag : String} {ep mp : List ℝ}
    (ho : ∀ o, G.full.ext = some o → Ext.construct el mag ep mp = .ok o) (hm : mag ≠ "const_z") {S T : GState}
    (U : Unrotating G.full.env.domR G.full.env.domZ S.f.s) (X : PlaneExternal G S) {n : Nat} (r : GRun G S n T) :
    Unrotating G.full.env.domR G.full.env.domZ T.f.s ∧ PlaneExternal G T := by
  induction r with
  | start => exact ⟨U, X⟩
  | @step m V W r' s ih =>
    have P : PlaneExternal G W := by
      rcases ih.2 with e | e
      · exact .inl e
      · refine .inr fun i j hi hj => flat_iff.mp ?_
        obtain ⟨_, _, _, _, _, _, _, ⟨_, _, a, _⟩, _⟩ := s
        have a := a i j hi hj
        unfold Full.applied at a
        split at a
        · rw [a]
          exact flat_iff.mpr (e i j hi hj)
        · rename_i o e'
          exact apply_flat _ o (construct_m (ho o e') hm) (flat_iff.mpr (e i j hi hj)) _ a
    exact ⟨C140_all_step hz hc ih.1 P s, P⟩

/-! ### Non-vacuity -/

/-- The hypotheses of `C140_run`: a charged particle flying inwards and along the axis in an undivided chamber; runs of every length exist. -/
example (n : Nat) : ∃ S T, Scheme (exEnv 1 1 1).dist ∧ Unrotating 1 1 S ∧ (S.heap 0).velR = 1/2 ∧ (S.heap 0).velZ = 1/3 ∧ Run (exEnv 1 1 1) S n T ∧ Unrotating 1 1 T := by
  have h := exEnv_chamber ex_div1 1
  have A : Alive (exEnv 1 1 1) [7] (exState 0 (exPart (3/2) (5/2) (1/2) (1/3) 1 2)) := by
    refine exState_alive ⟨rfl, ?_, ?_, ?_, ?_, ?_, ?_, ?_, ?_⟩ (by rfl)
    · rw [geom_eq h]
      constructor <;> norm_num [exEnv, exPart, low, hgt]
    all_goals norm_num [exEnv, exPart, vel, Vec3.length2, Int.floor_eq_iff]
  have U : Unrotating 1 1 (exState 0 (exPart (3/2) (5/2) (1/2) (1/3) 1 2)) :=
    ⟨fun _ _ _ _ _ _ _ _ => ⟨rfl, rfl⟩, fun _ _ _ _ _ _ => rfl, fun _ _ _ _ _ _ => ⟨rfl, rfl⟩, fun _ _ _ _ _ _ => ⟨rfl, rfl⟩, fun _ _ _ _ _ _ => rfl⟩
  obtain ⟨T, r, _⟩ := C97_single h (.inl rfl) (.inr rfl) rfl rfl (by unfold HalfCell exEnv; norm_num) (by simp) A n
  have r := (r T).mpr rfl
  exact ⟨_, T, .inr rfl, U, rfl, rfl, r, C140_run (E := exEnv 1 1 1) (.inr rfl) U r⟩

/-- The hypotheses of `C140_beams`: a plasma particle and a beam; runs of every length exist. -/
example (n : Nat) : ∃ S T, Scheme (exBEnv (1/2) 1 2).env.dist ∧ Unrotating 1 1 S.s ∧ BRun (exBEnv (1/2) 1 2) S n T ∧ Unrotating 1 1 T.s := by
  have G : BeamChamber (exBEnv (1/2) 1 2) := exB_chamber (by norm_num) (by norm_num) (by norm_num)
  have A : BAlive (exBEnv (1/2) 1 2) [7, 8] (exBState (exPart (3/2) (5/2) (1/2) (1/3) 1 2) (exPart (1/2) (5/2) (-2/3) (1/3) 0 2)) :=
    exB_alive (exB_place (by norm_num) (by norm_num) (by norm_num)) (exB_flying (by norm_num) (by norm_num) (by norm_num))
  have U : Unrotating 1 1 (exBState (exPart (3/2) (5/2) (1/2) (1/3) 1 2) (exPart (1/2) (5/2) (-2/3) (1/3) 0 2)).s := by
    refine ⟨fun i j _ _ sp hsp o ho => ?_, fun _ _ _ _ _ _ => rfl, fun _ _ _ _ _ _ => ⟨rfl, rfl⟩, fun _ _ _ _ _ _ => ⟨rfl, rfl⟩, fun _ _ _ _ _ _ => rfl⟩
    unfold exBState
    dsimp only
    split
    · exact ⟨rfl, rfl⟩
    · exact ⟨rfl, rfl⟩
  obtain ⟨⟨T, r⟩, _⟩ := C109_single G (.inl rfl) (.inr rfl) rfl rfl (exB_half _ _) (by decide) A n
  exact ⟨_, T, .inr rfl, U, r, C140_beams (B := exBEnv (1/2) 1 2) (.inr rfl) U r⟩

/-- The hypotheses of `C140_cold`: 100 charged particles of temperature zero and a beam; runs of every length exist. -/
example (n : Nat) : ∃ (X : Setup) (B : BEnv) (S T : BState), X.Sane ∧ Scheme X.env.dist ∧ X.species ≠ [] ∧ B.beams ≠ [] ∧ (∀ s ∈ X.species, s.temperature = 0) ∧
    B.env = X.env ∧ Starts X S.s ∧ BRun B S n T ∧ Unrotating 1 1 T.s := by
  have G : BeamChamber (exBEnv (1/2) 1 2) := exB_chamber (by norm_num) (by norm_num) (by norm_num)
  have s := exSetup_sane (E := (exBEnv (1/2) 1 2).env) G.chamber rfl 100 .flat (beams := [8]) (List.nodup_singleton 8) (by decide)
  have h : Setup.Sane { exSetup (exBEnv (1/2) 1 2).env 100 .flat [8] with species := [⟨7, 100, 1, 2, 0⟩] } :=
    ⟨s.1, s.2, s.3, s.4, s.5, s.6, s.7, s.8, s.9, fun t ht => by obtain rfl := List.mem_singleton.mp ht; norm_num, s.11, s.12, s.13, s.14⟩
  have d : ∀ t ∈ [(⟨7, 100, 1, 2, 0⟩ : Species)], Setup.Drawable { exSetup (exBEnv (1/2) 1 2).env 100 .flat [8] with species := [⟨7, 100, 1, 2, 0⟩] } t := by
    intro t ht
    obtain rfl := List.mem_singleton.mp ht
    have := exSetup_drawable (E := (exBEnv (1/2) 1 2).env) (a := 100) rfl (by norm_num) (by norm_num [exBEnv, exEnv]) .flat [8] _ (List.mem_singleton.mpr rfl)
    exact ⟨this.1, this.2.1, this.2.2.1, .inl ⟨by norm_num, fun _ _ _ => by
      show Vel.lnln (Real.exp (-Real.exp 1)) ≠ 2
      rw [Vel.ex_lnln]
      norm_num⟩⟩
  have c : ∀ t ∈ [(⟨7, 100, 1, 2, 0⟩ : Species)], t.temperature = 0 := fun t ht => by obtain rfl := List.mem_singleton.mp ht; rfl
  obtain ⟨S, st⟩ := C110_exists h (fun t ht => .inr (cold_zero h (c t ht))) d
  obtain ⟨⟨T, r⟩, _⟩ := C110_beams h (fun t ht => cold_zero h (c t ht)) G rfl rfl (.inl rfl) (.inr rfl) rfl rfl (exB_half 1 2) (S := ⟨S, fun _ _ _ => 0⟩) st n
  exact ⟨_, exBEnv (1/2) 1 2, ⟨S, fun _ _ _ => 0⟩, T, h, .inr rfl, by simp, by simp [exBEnv], c, rfl, st, r, C140_cold h (.inr rfl) c rfl st r⟩

/-- The hypotheses of `C140_external` and `C140_all`: a plasma particle, a beam and external fields of other profiles; runs of every length
exist. -/
example (n : Nat) : ∃ T, GRun (Mixed.all (some ⟨0, 2, [5], [7]⟩) none 4) Mixed.state n T ∧ Unrotating 1 1 T.f.s := by
  obtain ⟨T, r⟩ := (C130_external (Mixed.built _ _ (by norm_num)) (.inr rfl) rfl (ext_works (el := "const_z") (mag := "const_phi") (ep := [5]) (mp := [7])
    (fun o h => by injection h with h; subst h; rfl) (by simp)) rfl rfl Mixed.half (by decide) (Mixed.alive (some ⟨0, 2, [5], [7]⟩) none (r := 4) (by norm_num)) n).1
  have U : Unrotating 1 1 Mixed.state.f.s := by
    refine ⟨fun i j _ _ sp hsp o ho => ?_, fun _ _ _ _ _ _ => rfl, fun _ _ _ _ _ _ => ⟨rfl, rfl⟩, fun _ _ _ _ _ _ => ⟨rfl, rfl⟩, fun _ _ _ _ _ _ => rfl⟩
    unfold Mixed.state
    dsimp only
    split
    · exact ⟨rfl, rfl⟩
    · exact ⟨rfl, rfl⟩
  exact ⟨T, r, (C140_external (G := Mixed.all (some ⟨0, 2, [5], [7]⟩) none 4) (.inr rfl) rfl (el := "const_z") (mag := "const_phi") (ep := [5]) (mp := [7])
    (fun o h => by injection h with h; subst h; rfl) (by decide) U
    (.inr fun _ _ _ _ _ _ => ⟨rfl, rfl, rfl⟩) r).1⟩

end Pic
end Pico
