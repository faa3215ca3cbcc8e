import Verif.Spec.FieldMpi
import Verif.Lemmas.FieldStep
import Verif.Lemmas.Dump
import Verif.Props.Mpi

/-! The exchange of columns between processes, and the windows of the area in the domains of all processes. -/

set_option linter.unusedSimpArgs false
set_option linter.unusedVariables false
set_option linter.unusedSectionVars false

namespace Pico
namespace Yee

open SMB

variable {K : Type _}

/-! ## Packing -/

section
variable [Zero K]

theorem packCols_ok (get : Nat → Nat → Res K) (v : Nat → Nat → K) (rows : Nat) (h : ∀ q a, q < 4 → a < rows → get q a = .ok (v q a)) :
    ∃ w, packCols get rows = .ok w ∧ ∀ q a, q < 4 → a < rows → w q a = v q a := by
  have key : ∀ (l : List (Nat × Nat)) (w : Nat → Nat → K), (∀ s ∈ l, s.1 < rows ∧ s.2 < 4) → ∃ w',
      loop (fun (p : Nat × Nat) (v : Nat → Nat → K) => get p.2 p.1 >>= fun x => .ok fun q a => if a = p.1 ∧ q = p.2 then x else v q a)
        l w = .ok w' ∧ ∀ q a, ((a, q) ∈ l → w' q a = v q a) ∧ ((a, q) ∉ l → w' q a = w q a) := by
    intro l
    induction l with
    | nil => intro w _; exact ⟨w, rfl, fun q a => ⟨fun h => absurd h List.not_mem_nil, fun _ => rfl⟩⟩
    | cons s l ih =>
      intro w hl
      have hs := hl s List.mem_cons_self
      obtain ⟨w', e, k⟩ := ih (fun q a => if a = s.1 ∧ q = s.2 then v s.2 s.1 else w q a) (fun t ht => hl t (List.mem_cons_of_mem _ ht))
      refine ⟨w', ?_, ?_⟩
      · rw [loop_cons, h s.2 s.1 hs.2 hs.1, Res.ok_bind, Res.ok_bind, e]
      · intro q a
        by_cases hm : (a, q) ∈ l
        · exact ⟨fun _ => (k q a).1 hm, fun n => absurd (List.mem_cons_of_mem _ hm) n⟩
        · have := (k q a).2 hm
          constructor
          · intro n
            rcases List.mem_cons.mp n with n | n
            · obtain ⟨s1, s2⟩ := s
              obtain ⟨rfl, rfl⟩ := Prod.mk.inj n
              rw [this, if_pos ⟨rfl, rfl⟩]
            · exact absurd n hm
          · intro n
            rw [this, if_neg (fun x => n (List.mem_cons.mpr (Or.inl (Prod.ext x.1 x.2))))]
  obtain ⟨w, e, k⟩ := key (idx2 0 rows 0 4) (fun _ _ => 0) (fun s hs => by have := mem_idx2.mp hs; omega)
  exact ⟨w, e, fun q a hq ha => (k q a).1 (mem_idx2.mpr (by dsimp only; omega))⟩

theorem packItem_ok (pack : Grid K → Nat → Nat → Res K) (P : Par K) (m : Mem K) (v : Comp → Nat → Nat → K) (i : Nat) (cs : List Comp)
    (h : ∀ c ∈ cs, ∀ q a, q < 4 → a < P.nr + 4 → pack (toGrid P m c) q a = .ok (v c q a)) :
    ∃ it, packItem pack P m cs i = .ok it ∧ it.row = i ∧ ∀ c ∈ cs, ∀ q a, q < 4 → a < P.nr + 4 → it.col c q a = v c q a := by
  have key : ∀ (l : List Comp) (it : Item K), (∀ c ∈ l, c ∈ cs) → ∃ it',
      loop (fun c it => packCols (pack (toGrid P m c)) (toGrid P m c).xr >>= fun v =>
        .ok { it with col := fun c' => if c' = c then v else it.col c' }) l it = .ok it' ∧ it'.row = it.row ∧
      (∀ c ∉ l, it'.col c = it.col c) ∧ ∀ c ∈ l, ∀ q a, q < 4 → a < P.nr + 4 → it'.col c q a = v c q a := by
    intro l
    induction l with
    | nil => intro it _; exact ⟨it, rfl, rfl, fun _ _ => rfl, fun c h => absurd h List.not_mem_nil⟩
    | cons c l ih =>
      intro it hl
      obtain ⟨w, e1, k1⟩ := packCols_ok (pack (toGrid P m c)) (v c) (P.nr + 4) (h c (hl c List.mem_cons_self))
      obtain ⟨it', e2, k2, k3, k4⟩ := ih { it with col := fun c' => if c' = c then w else it.col c' }
        (fun c' hc => hl c' (List.mem_cons_of_mem _ hc))
      refine ⟨it', ?_, k2, ?_, ?_⟩
      · have e1' : packCols (pack (toGrid P m c)) (toGrid P m c).xr = .ok w := e1
        rw [loop_cons, e1', Res.ok_bind, Res.ok_bind, e2]
      · intro c' hc
        rw [k3 c' (fun n => hc (List.mem_cons_of_mem _ n))]
        exact if_neg (fun n : c' = c => hc (n ▸ List.mem_cons_self))
      · intro c' hc q a hq ha
        by_cases hm : c' ∈ l
        · exact k4 c' hm q a hq ha
        · rcases List.mem_cons.mp hc with rfl | n
          · rw [k3 _ hm]
            dsimp only
            rw [if_pos rfl]
            exact k1 q a hq ha
          · exact absurd n hm
  obtain ⟨it, e, k1, _, k3⟩ := key cs ⟨i, fun _ _ _ => 0⟩ (fun _ h => h)
  exact ⟨it, e, k1, k3⟩

theorem packAll_ok (pack : Grid K → Nat → Nat → Res K) (P : Nat → Nat → Par K) (domR j : Nat) (cs : List Comp) (M : Solvers K)
    (v : Nat → Comp → Nat → Nat → K)
    (h : ∀ i, i < domR → ∀ c ∈ cs, ∀ q a, q < 4 → a < (P i j).nr + 4 → pack (toGrid (P i j) (M i j) c) q a = .ok (v i c q a)) :
    ∃ it : Nat → Item K, packAll pack P domR j cs M = .ok ((List.range domR).map it) ∧ ∀ i, i < domR → (it i).row = i ∧
      ∀ c ∈ cs, ∀ q a, q < 4 → a < (P i j).nr + 4 → (it i).col c q a = v i c q a := by
  have ex : ∀ i, ∃ it : Item K, i < domR → packItem pack (P i j) (M i j) cs i = .ok it ∧ it.row = i ∧
      ∀ c ∈ cs, ∀ q a, q < 4 → a < (P i j).nr + 4 → it.col c q a = v i c q a := by
    intro i
    by_cases hi : i < domR
    · obtain ⟨it, k⟩ := packItem_ok pack (P i j) (M i j) (v i) i cs (h i hi)
      exact ⟨it, fun _ => k⟩
    · exact ⟨⟨0, fun _ _ _ => 0⟩, fun n => absurd n hi⟩
  choose it hit using ex
  refine ⟨it, ?_, fun i hi => (hit i hi).2⟩
  have key : ∀ (l : List Nat) (acc : List (Item K)), (∀ i ∈ l, i < domR) →
      loop (fun i l => packItem pack (P i j) (M i j) cs i >>= fun it => .ok (l ++ [it])) l acc = .ok (acc ++ l.map it) := by
    intro l
    induction l with
    | nil => intro acc _; simp [loop_nil]
    | cons i l ih =>
      intro acc hl
      rw [loop_cons, (hit i (hl i List.mem_cons_self)).1, Res.ok_bind, Res.ok_bind, ih _ (fun k hk => hl k (List.mem_cons_of_mem _ hk))]
      simp
  exact (key (List.range domR) [] (fun i hi => List.mem_range.mp hi)).trans (by simp)

end

/-! ## Adding -/

section
variable [AddCommMonoid K]

/-- `add` increments the cells of a grid by `w`. -/
def AddsBy (add : Grid K → (Nat → Nat → K) → Res (Grid K)) (w : Nat → (Nat → Nat → K) → Nat → Nat → K) : Prop :=
  ∀ (g : Grid K) (item : Nat → Nat → K), g.WF → g.os = 2 → ∃ g', add g item = .ok g' ∧
    ∀ a b, a < g.xr → b < g.yr → g'.cell a b = g.cell a b + w g.ys item a b

theorem cell_of_get {g g' : Grid K} (wf : g.WF) (ho : g.os = 2) (hs : g.SameShape g') {a b : Nat} (ha : a < g.xr) (hb : b < g.yr) {v : K}
    (h : g'.get ((a : Int) - 2) ((b : Int) - 2) = .ok v) : g'.cell a b = v := by
  obtain ⟨s1, s2, s3⟩ := hs
  have wf' : g'.WF := by unfold Grid.WF Grid.xr Grid.yr at *; rw [s1, s2, s3]; exact wf
  have hx : g.xr = g.xs + 4 := by unfold Grid.xr; rw [ho]
  have hy : g.yr = g.ys + 4 := by unfold Grid.yr; rw [ho]
  rw [Grid.get_inside g' wf' (by unfold Grid.Inside; rw [s1, s2, s3, ho]; omega), s1, ho] at h
  have e1 : ((a : Int) - 2 + (2 : Nat)).toNat = a := by omega
  have e2 : ((b : Int) - 2 + (2 : Nat)).toNat = b := by omega
  rw [e1, e2] at h
  exact Res.ok.inj h

theorem get_of_cell {g : Grid K} (wf : g.WF) (ho : g.os = 2) {a b : Nat} (ha : a < g.xr) (hb : b < g.yr) :
    g.get ((a : Int) - 2) ((b : Int) - 2) = .ok (g.cell a b) := by
  have hx : g.xr = g.xs + 4 := by unfold Grid.xr; rw [ho]
  have hy : g.yr = g.ys + 4 := by unfold Grid.yr; rw [ho]
  rw [Grid.get_inside g wf (by unfold Grid.Inside; rw [ho]; omega), ho]
  have e1 : ((a : Int) - 2 + (2 : Nat)).toNat = a := by omega
  have e2 : ((b : Int) - 2 + (2 : Nat)).toNat = b := by omega
  rw [e1, e2]

theorem addMinus_adds : AddsBy (K := K) Mpi.addMinus (fun _ item a b => if b < 4 then item b a else 0) := by
  intro g item wf ho
  have hx : g.xr = g.xs + 4 := by unfold Grid.xr; rw [ho]
  have hy : g.yr = g.ys + 4 := by unfold Grid.yr; rw [ho]
  have w1 := wf.1
  have w2 := wf.2
  obtain ⟨g', e, s, k1, k2⟩ := Mpi.loop_incs g (fun p => (p.1 : Int) - g.os) (fun p => (p.2 : Int) - g.os)
    (fun p => item p.2 p.1) (idx2 0 g.xr 0 4) (nodup_idx2 _ _ _ _) wf
    (by
      intro p hp
      have := mem_idx2.mp hp
      unfold Grid.Inside
      rw [ho] at *
      omega)
    (by
      intro p hp q hq h1 h2
      exact Prod.ext (by omega) (by omega))
  refine ⟨g', e, fun a b ha hb => ?_⟩
  refine cell_of_get wf ho s ha hb ?_
  dsimp only
  rw [ho] at k1 k2
  by_cases h4 : b < 4
  · rw [if_pos h4]
    exact k1 (a, b) (mem_idx2.mpr (by dsimp only; omega)) _ (get_of_cell wf ho ha hb)
  · rw [if_neg h4, add_zero, k2 _ _ (by unfold IsInt; omega) (by unfold IsInt; omega), get_of_cell wf ho ha hb]
    intro q hq h
    have := mem_idx2.mp hq
    omega

theorem addPlus_adds : AddsBy (K := K) Mpi.addPlus (fun ys item a b => if ys ≤ b then item (b - ys) a else 0) := by
  intro g item wf ho
  have hx : g.xr = g.xs + 4 := by unfold Grid.xr; rw [ho]
  have hy : g.yr = g.ys + 4 := by unfold Grid.yr; rw [ho]
  have w1 := wf.1
  have w2 := wf.2
  obtain ⟨g', e, s, k1, k2⟩ := Mpi.loop_incs g (fun p => (p.1 : Int) - g.os) (fun p => (g.ys : Int) + g.os - 1 - (p.2 : Int))
    (fun p => item (3 - p.2) p.1) (idx2 0 g.xr 0 4) (nodup_idx2 _ _ _ _) wf
    (by
      intro p hp
      have := mem_idx2.mp hp
      unfold Grid.Inside
      rw [ho] at *
      omega)
    (by
      intro p hp q hq h1 h2
      exact Prod.ext (by omega) (by omega))
  refine ⟨g', e, fun a b ha hb => ?_⟩
  refine cell_of_get wf ho s ha hb ?_
  dsimp only
  rw [ho] at k1 k2
  by_cases h4 : g.ys ≤ b
  · rw [if_pos h4]
    have := k1 (a, g.ys + 3 - b) (mem_idx2.mpr (by dsimp only; omega))
    dsimp only at this
    have e1 : (g.ys : Int) + (2 : Nat) - 1 - ((g.ys + 3 - b : Nat) : Int) = (b : Int) - 2 := by omega
    have e2 : 3 - (g.ys + 3 - b) = b - g.ys := by omega
    rw [e1, e2] at this
    exact this _ (get_of_cell wf ho ha hb)
  · rw [if_neg h4, add_zero, k2 _ _ (by unfold IsInt; omega) (by unfold IsInt; omega), get_of_cell wf ho ha hb]
    intro q hq h
    have := mem_idx2.mp hq
    omega

theorem toGrid_cell (P : Par K) (m : Mem K) (c : Comp) {x y : Int} (h : P.inside x y) :
    (toGrid P m c).cell (x + 2).toNat (y + 2).toNat = m c x y := by
  unfold Par.inside at h
  show m c (((x + 2).toNat : Int) - 2) (((y + 2).toNat : Int) - 2) = _
  congr 1 <;> omega

theorem toGrid_wf {P : Par K} (m : Mem K) (c : Comp) (h1 : P.nr + 4 < 2 ^ 31) (h2 : P.nz + 4 < 2 ^ 31) : (toGrid P m c).WF := ⟨h1, h2⟩

/-- Adding the received items of all domain rows. -/
theorem addAll_ok {add : Grid K → (Nat → Nat → K) → Res (Grid K)} {w : Nat → (Nat → Nat → K) → Nat → Nat → K} (ha : AddsBy add w)
    (P : Nat → Nat → Par K) (domR j : Nat) (cs : List Comp) (nd : cs.Nodup) (it : Nat → Item K) (M : Solvers K)
    (hw : ∀ i, i < domR → (P i j).nr + 4 < 2 ^ 31 ∧ (P i j).nz + 4 < 2 ^ 31) (hr : ∀ i, i < domR → (it i).row = i) :
    ∃ M', loop (addItem add P domR j cs) ((List.range domR).map it) M = .ok M' ∧
      (∀ a b c x y, ¬ (a < domR ∧ b = j ∧ c ∈ cs ∧ (P a b).inside x y) → M' a b c x y = M a b c x y) ∧
      ∀ a c x y, a < domR → c ∈ cs → (P a j).inside x y →
        M' a j c x y = M a j c x y + w (P a j).nz ((it a).col c) (x + 2).toNat (y + 2).toNat := by
  have comps : ∀ i, i < domR → ∀ (l : List Comp) (M : Solvers K), l.Nodup → ∃ M', loop (addComp add P j (it i)) l M = .ok M' ∧
      (∀ a b c x y, ¬ (a = i ∧ b = j ∧ c ∈ l ∧ (P a b).inside x y) → M' a b c x y = M a b c x y) ∧
      ∀ c x y, c ∈ l → (P i j).inside x y →
        M' i j c x y = M i j c x y + w (P i j).nz ((it i).col c) (x + 2).toNat (y + 2).toNat := by
    intro i hi l
    induction l with
    | nil => intro M _; exact ⟨M, rfl, fun _ _ _ _ _ _ => rfl, fun c x y h => absurd h List.not_mem_nil⟩
    | cons c l ih =>
      intro M nd
      obtain ⟨n1, n2⟩ := List.nodup_cons.mp nd
      obtain ⟨g, e1, k1⟩ := ha (toGrid (P i j) (M i j) c) ((it i).col c) (toGrid_wf _ _ (hw i hi).1 (hw i hi).2) rfl
      obtain ⟨M', e2, k2, k3⟩ := ih (fun a b => if a = i ∧ b = j then ofGrid (P a b) (M a b) c g else M a b) n2
      have one : ∀ a b c' x y, (if a = i ∧ b = j then ofGrid (P a b) (M a b) c g else M a b) c' x y =
          if a = i ∧ b = j ∧ c' = c ∧ (P a b).inside x y then g.cell (x + 2).toNat (y + 2).toNat else M a b c' x y := by
        intro a b c' x y
        by_cases h : a = i ∧ b = j
        · rw [if_pos h]
          unfold ofGrid
          by_cases h' : c' = c ∧ (P a b).inside x y
          · rw [if_pos h', if_pos ⟨h.1, h.2, h'⟩]
          · rw [if_neg h', if_neg (fun n => h' n.2.2)]
        · rw [if_neg h, if_neg (fun n => h ⟨n.1, n.2.1⟩)]
      refine ⟨M', ?_, ?_, ?_⟩
      · have : addComp add P j (it i) c M = .ok (fun a b => if a = i ∧ b = j then ofGrid (P a b) (M a b) c g else M a b) := by
          unfold addComp
          rw [hr i hi, e1, Res.ok_bind]
        rw [loop_cons, this, Res.ok_bind, e2]
      · intro a b c' x y h
        rw [k2 a b c' x y (fun n => h ⟨n.1, n.2.1, List.mem_cons_of_mem _ n.2.2.1, n.2.2.2⟩), one]
        exact if_neg (fun n : a = i ∧ b = j ∧ c' = c ∧ _ => h ⟨n.1, n.2.1, n.2.2.1 ▸ List.mem_cons_self, n.2.2.2⟩)
      · intro c' x y hc hin
        by_cases hm : c' ∈ l
        · rw [k3 c' x y hm hin, one, if_neg (fun n : i = i ∧ j = j ∧ c' = c ∧ _ => n1 (n.2.2.1 ▸ hm))]
        · rcases List.mem_cons.mp hc with rfl | n
          · rw [k2 i j _ x y (fun n => hm n.2.2.1), one, if_pos ⟨rfl, rfl, rfl, hin⟩]
            have hin' := hin
            unfold Par.inside at hin'
            rw [k1 _ _ (by show _ < (P i j).nr + 4; omega) (by show _ < (P i j).nz + 4; omega), toGrid_cell _ _ _ hin]
            rfl
          · exact absurd n hm
  have key : ∀ (l : List Nat) (M : Solvers K), l.Nodup → (∀ i ∈ l, i < domR) →
      ∃ M', loop (addItem add P domR j cs) (l.map it) M = .ok M' ∧
      (∀ a b c x y, ¬ (a ∈ l ∧ b = j ∧ c ∈ cs ∧ (P a b).inside x y) → M' a b c x y = M a b c x y) ∧
      ∀ a c x y, a ∈ l → c ∈ cs → (P a j).inside x y →
        M' a j c x y = M a j c x y + w (P a j).nz ((it a).col c) (x + 2).toNat (y + 2).toNat := by
    intro l
    induction l with
    | nil => intro M _ _; exact ⟨M, rfl, fun _ _ _ _ _ _ => rfl, fun a c x y h => absurd h List.not_mem_nil⟩
    | cons i l ih =>
      intro M nd' hl
      obtain ⟨n1, n2⟩ := List.nodup_cons.mp nd'
      have hi := hl i List.mem_cons_self
      obtain ⟨M1, e1, k1, k2⟩ := comps i hi cs M nd
      obtain ⟨M', e2, k3, k4⟩ := ih M1 n2 (fun k hk => hl k (List.mem_cons_of_mem _ hk))
      refine ⟨M', ?_, ?_, ?_⟩
      · have : addItem add P domR j cs (it i) M = .ok M1 := by
          unfold addItem
          rw [hr i hi, if_pos hi, e1]
        rw [List.map_cons, loop_cons, this, Res.ok_bind, e2]
      · intro a b c x y h
        rw [k3 a b c x y (fun n => h ⟨List.mem_cons_of_mem _ n.1, n.2⟩),
          k1 a b c x y (fun n => h ⟨n.1 ▸ List.mem_cons_self, n.2⟩)]
      · intro a c x y hm hc hin
        by_cases h : a ∈ l
        · rw [k4 a c x y h hc hin, k1 a j c x y (fun n => n1 (n.1 ▸ h))]
        · rcases List.mem_cons.mp hm with rfl | n
          · rw [k3 _ j c x y (fun n => h n.1), k2 c x y hc hin]
          · exact absurd n h
  obtain ⟨M', e, k1, k2⟩ := key (List.range domR) M List.nodup_range (fun i hi => List.mem_range.mp hi)
  exact ⟨M', e, fun a b c x y h => k1 a b c x y (fun n => h ⟨List.mem_range.mp n.1, n.2⟩),
    fun a c x y h => k2 a c x y (List.mem_range.mpr h)⟩

/-! ## The exchange -/

/-- The solvers of one process after the exchange of component `c`: the domains of the first column get the last columns of
the previous process, those of the last column the first columns of the next one. -/
theorem exchange_ok (P : Nat → Nat → Nat → Par K) (procs domR domZ cap : Nat) (cs : List Comp) (nd : cs.Nodup) (hz1 : 1 ≤ domZ)
    (R : Nat → Nat) (h : Nat) (hP : ∀ k i j, k < procs → i < domR → j < domZ → (P k i j).nr = R i ∧ (P k i j).nz = h)
    (hR : ∀ i, i < domR → R i + 4 < 2 ^ 31) (hh : h + 4 < 2 ^ 31) (M : Nat → Solvers K) :
    (∀ M', Exchange P procs domR domZ cap cs M M' → ∀ k, k < procs →
      (∀ i j c x y, i < domR → j < domZ → c ∉ cs → M' k i j c x y = M k i j c x y) ∧
      ∀ i j c x y, i < domR → j < domZ → c ∈ cs → (P k i j).inside x y → M' k i j c x y = M k i j c x y +
        (if 0 < k ∧ j = 0 ∧ y < 2 then M (k - 1) i (domZ - 1) c x (h + y) else 0) +
        (if k + 1 < procs ∧ j = domZ - 1 ∧ (h : Int) - 2 ≤ y then M (k + 1) i 0 c x (y - h) else 0)) ∧
    (domR ≤ cap → ∃ M', Exchange P procs domR domZ cap cs M M') := by
  -- what is packed
  have getok : ∀ k i j c x y, k < procs → i < domR → j < domZ → (P k i j).inside x y →
      (toGrid (P k i j) (M k i j) c).get x y = .ok (M k i j c x y) := by
    intro k i j c x y hk hi hj hin
    have e := hP k i j hk hi hj
    have hin' := hin
    unfold Par.inside at hin'
    have r := hR i hi
    rw [Grid.get_inside _ (toGrid_wf _ _ (by omega) (by omega))]
    · exact congrArg Res.ok (toGrid_cell _ _ _ hin)
    · unfold Grid.Inside
      show (-(2 : Nat) ≤ x ∧ x < (P k i j).nr + (2 : Nat)) ∧ (-(2 : Nat) ≤ y ∧ y < (P k i j).nz + (2 : Nat))
      omega
  have pkP : ∀ k, k < procs → ∃ it : Nat → Item K, packAll Mpi.packPlus (P k) domR (domZ - 1) cs (M k) = .ok ((List.range domR).map it) ∧
      ∀ i, i < domR → (it i).row = i ∧ ∀ c ∈ cs, ∀ q a, q < 4 → a < (P k i (domZ - 1)).nr + 4 →
        (it i).col c q a = M k i (domZ - 1) c ((a : Int) - 2) ((h : Int) - 2 + q) := by
    intro k hk
    refine packAll_ok Mpi.packPlus (P k) domR (domZ - 1) cs (M k) (fun i c q a => M k i (domZ - 1) c ((a : Int) - 2) ((h : Int) - 2 + q)) ?_
    intro i hi c hc q a hq ha
    have e := hP k i (domZ - 1) hk hi (by omega)
    unfold Mpi.packPlus
    have e1 : ((toGrid (P k i (domZ - 1)) (M k i (domZ - 1)) c).ys : Int) = h := congrArg Nat.cast e.2
    have e2 : ((toGrid (P k i (domZ - 1)) (M k i (domZ - 1)) c).os : Int) = 2 := rfl
    rw [e1, e2, show (h : Int) + 2 - 4 + q = h - 2 + q by omega]
    refine getok k i (domZ - 1) c _ _ hk hi (by omega) ?_
    unfold Par.inside
    omega
  have pkM : ∀ k, k < procs → ∃ it : Nat → Item K, packAll Mpi.packMinus (P k) domR 0 cs (M k) = .ok ((List.range domR).map it) ∧
      ∀ i, i < domR → (it i).row = i ∧ ∀ c ∈ cs, ∀ q a, q < 4 → a < (P k i 0).nr + 4 →
        (it i).col c q a = M k i 0 c ((a : Int) - 2) ((q : Int) - 2) := by
    intro k hk
    refine packAll_ok Mpi.packMinus (P k) domR 0 cs (M k) (fun i c q a => M k i 0 c ((a : Int) - 2) ((q : Int) - 2)) ?_
    intro i hi c hc q a hq ha
    have e := hP k i 0 hk hi (by omega)
    unfold Mpi.packMinus
    have e2 : ((toGrid (P k i 0) (M k i 0) c).os : Int) = 2 := rfl
    rw [e2]
    refine getok k i 0 c _ _ hk hi (by omega) ?_
    unfold Par.inside
    omega
  have pkP' : ∀ k, ∃ it : Nat → Item K, k < procs → packAll Mpi.packPlus (P k) domR (domZ - 1) cs (M k) = .ok ((List.range domR).map it) ∧
      ∀ i, i < domR → (it i).row = i ∧ ∀ c ∈ cs, ∀ q a, q < 4 → a < (P k i (domZ - 1)).nr + 4 →
        (it i).col c q a = M k i (domZ - 1) c ((a : Int) - 2) ((h : Int) - 2 + q) := by
    intro k
    by_cases hk : k < procs
    · obtain ⟨it, e⟩ := pkP k hk
      exact ⟨it, fun _ => e⟩
    · exact ⟨fun _ => ⟨0, fun _ _ _ => 0⟩, fun n => absurd n hk⟩
  have pkM' : ∀ k, ∃ it : Nat → Item K, k < procs → packAll Mpi.packMinus (P k) domR 0 cs (M k) = .ok ((List.range domR).map it) ∧
      ∀ i, i < domR → (it i).row = i ∧ ∀ c ∈ cs, ∀ q a, q < 4 → a < (P k i 0).nr + 4 →
        (it i).col c q a = M k i 0 c ((a : Int) - 2) ((q : Int) - 2) := by
    intro k
    by_cases hk : k < procs
    · obtain ⟨it, e⟩ := pkM k hk
      exact ⟨it, fun _ => e⟩
    · exact ⟨fun _ => ⟨0, fun _ _ _ => 0⟩, fun n => absurd n hk⟩
  choose ip hip using pkP'
  choose im him using pkM'
  -- what is added, given the delivered items
  have adds : ∀ k, k < procs → ∃ M', (loop (addItem Mpi.addMinus (P k) domR 0 cs)
        (if 0 < k then (List.range domR).map (ip (k - 1)) else []) (M k) >>=
        loop (addItem Mpi.addPlus (P k) domR (domZ - 1) cs) (if k + 1 < procs then (List.range domR).map (im (k + 1)) else [])) = .ok M' ∧
      (∀ i j c x y, i < domR → j < domZ → c ∉ cs → M' i j c x y = M k i j c x y) ∧
      ∀ i j c x y, i < domR → j < domZ → c ∈ cs → (P k i j).inside x y → M' i j c x y = M k i j c x y +
        (if 0 < k ∧ j = 0 ∧ y < 2 then M (k - 1) i (domZ - 1) c x (h + y) else 0) +
        (if k + 1 < procs ∧ j = domZ - 1 ∧ (h : Int) - 2 ≤ y then M (k + 1) i 0 c x (y - h) else 0) := by
    intro k hk
    have a1 : ∃ M1, loop (addItem Mpi.addMinus (P k) domR 0 cs) (if 0 < k then (List.range domR).map (ip (k - 1)) else []) (M k) = .ok M1 ∧
        (∀ i j c x y, c ∉ cs → M1 i j c x y = M k i j c x y) ∧
        ∀ i j c x y, i < domR → j < domZ → c ∈ cs → (P k i j).inside x y → M1 i j c x y = M k i j c x y +
        (if 0 < k ∧ j = 0 ∧ y < 2 then M (k - 1) i (domZ - 1) c x (h + y) else 0) := by
      by_cases h0 : 0 < k
      · rw [if_pos h0]
        obtain ⟨M1, e, k1, k2⟩ := addAll_ok addMinus_adds (P k) domR 0 cs nd (ip (k - 1)) (M k)
          (fun i hi => by have := hP k i 0 hk hi (by omega); have := hR i hi; omega) (fun i hi => ((hip (k - 1) (by omega)).2 i hi).1)
        refine ⟨M1, e, fun i j c x y hc => k1 i j c x y (fun n => hc n.2.2.1), ?_⟩
        intro i j c x y hi hj hc hin
        by_cases hj0 : j = 0
        · subst hj0
          rw [k2 i c x y hi hc hin]
          have hin' := hin
          unfold Par.inside at hin'
          have e1 := hP k i 0 hk hi hj
          have e2 := hP (k - 1) i (domZ - 1) (by omega) hi (by omega)
          congr 1
          by_cases h2 : y < 2
          · rw [if_pos (show (y + 2).toNat < 4 by omega), if_pos ⟨h0, rfl, h2⟩,
              ((hip (k - 1) (by omega)).2 i hi).2 c hc _ _ (by omega) (by omega)]
            congr 1 <;> omega
          · rw [if_neg (show ¬ (y + 2).toNat < 4 by omega), if_neg (fun n => h2 n.2.2)]
        · rw [k1 i j c x y (fun n => hj0 n.2.1), if_neg (fun n => hj0 n.2.1), add_zero]
      · rw [if_neg h0]
        refine ⟨M k, rfl, fun _ _ _ _ _ _ => rfl, ?_⟩
        intro i j c x y hi hj hc hin
        rw [if_neg (fun n => h0 n.1), add_zero]
    obtain ⟨M1, e1, b1, b2⟩ := a1
    have a2 : ∃ M2, loop (addItem Mpi.addPlus (P k) domR (domZ - 1) cs) (if k + 1 < procs then (List.range domR).map (im (k + 1)) else []) M1
          = .ok M2 ∧
        (∀ i j c x y, c ∉ cs → M2 i j c x y = M1 i j c x y) ∧
        ∀ i j c x y, i < domR → j < domZ → c ∈ cs → (P k i j).inside x y → M2 i j c x y = M1 i j c x y +
        (if k + 1 < procs ∧ j = domZ - 1 ∧ (h : Int) - 2 ≤ y then M (k + 1) i 0 c x (y - h) else 0) := by
      by_cases h0 : k + 1 < procs
      · rw [if_pos h0]
        obtain ⟨M2, e, k1, k2⟩ := addAll_ok addPlus_adds (P k) domR (domZ - 1) cs nd (im (k + 1)) M1
          (fun i hi => by have := hP k i (domZ - 1) hk hi (by omega); have := hR i hi; omega) (fun i hi => ((him (k + 1) h0).2 i hi).1)
        refine ⟨M2, e, fun i j c x y hc => k1 i j c x y (fun n => hc n.2.2.1), ?_⟩
        intro i j c x y hi hj hc hin
        by_cases hj0 : j = domZ - 1
        · subst hj0
          rw [k2 i c x y hi hc hin]
          have hin' := hin
          unfold Par.inside at hin'
          have e1 := hP k i (domZ - 1) hk hi hj
          have e2 := hP (k + 1) i 0 h0 hi (by omega)
          congr 1
          by_cases h2 : (h : Int) - 2 ≤ y
          · rw [if_pos (show (P k i (domZ - 1)).nz ≤ (y + 2).toNat by omega), if_pos ⟨h0, rfl, h2⟩,
              ((him (k + 1) h0).2 i hi).2 c hc _ _ (by omega) (by omega)]
            congr 1 <;> omega
          · rw [if_neg (show ¬ (P k i (domZ - 1)).nz ≤ (y + 2).toNat by omega), if_neg (fun n => h2 n.2.2)]
        · rw [k1 i j c x y (fun n => hj0 n.2.1), if_neg (fun n => hj0 n.2.1), add_zero]
      · rw [if_neg h0]
        refine ⟨M1, rfl, fun _ _ _ _ _ _ => rfl, ?_⟩
        intro i j c x y hi hj hc hin
        rw [if_neg (fun n => h0 n.1), add_zero]
    obtain ⟨M2, e2, b3, b4⟩ := a2
    refine ⟨M2, by rw [e1, Res.ok_bind, e2], ?_, ?_⟩
    · intro i j c x y _ _ hc
      rw [b3 i j c x y hc, b1 i j c x y hc]
    · intro i j c x y hi hj hc hin
      rw [b4 i j c x y hi hj hc hin, b2 i j c x y hi hj hc hin]
  -- the delivered items are the packed ones
  have del : ∀ (plus minus : Nat → List (Item K)) (s : Mpi.State (Item K)),
      (∀ k, k < procs → plus k = (List.range domR).map (ip k) ∧ minus k = (List.range domR).map (im k)) →
      Mpi.Reach cap procs plus minus s → Mpi.Final s → ∀ k, k < procs →
      (if 0 < k then s.got k (k - 1) else []) = (if 0 < k then (List.range domR).map (ip (k - 1)) else []) ∧
      (if k + 1 < procs then s.got k (k + 1) else []) = (if k + 1 < procs then (List.range domR).map (im (k + 1)) else []) := by
    intro plus minus s hpm hs hF k hk
    have U : Mpi.Uniform procs domR plus minus := by
      intro k hk
      rw [(hpm k hk).1, (hpm k hk).2]
      simp
    constructor
    · by_cases h0 : 0 < k
      · rw [if_pos h0, if_pos h0]
        obtain ⟨k, rfl⟩ : ∃ a, k = a + 1 := ⟨k - 1, by omega⟩
        rw [Nat.add_sub_cancel, (Mpi.C12_delivery U hs hF k hk).1, (hpm k (by omega)).1]
      · rw [if_neg h0, if_neg h0]
    · by_cases h0 : k + 1 < procs
      · rw [if_pos h0, if_pos h0, (Mpi.C12_delivery U hs hF k h0).2, (hpm (k + 1) h0).2]
      · rw [if_neg h0, if_neg h0]
  constructor
  · rintro M' ⟨plus, minus, hpk, s, hs, hF, hadd⟩ k hk
    have hpm : ∀ k, k < procs → plus k = (List.range domR).map (ip k) ∧ minus k = (List.range domR).map (im k) := by
      intro k hk
      exact ⟨Res.ok.inj ((hpk k hk).1.symm.trans (hip k hk).1), Res.ok.inj ((hpk k hk).2.symm.trans (him k hk).1)⟩
    obtain ⟨d1, d2⟩ := del plus minus s hpm hs hF k hk
    obtain ⟨N, e, a1, a2⟩ := adds k hk
    have := hadd k hk
    rw [d1, d2, e] at this
    rw [← Res.ok.inj this]
    exact ⟨a1, a2⟩
  · intro hcap
    let plus : Nat → List (Item K) := fun k => (List.range domR).map (ip k)
    let minus : Nat → List (Item K) := fun k => (List.range domR).map (im k)
    have U : Mpi.Uniform procs domR plus minus := by
      intro k hk
      constructor <;> simp [plus, minus]
    obtain ⟨s, hs, hF⟩ : ∃ s, Mpi.Reach cap procs plus minus s ∧ Mpi.Final s := by
      have : ∀ n (s : Mpi.State (Item K)), Mpi.remaining procs s ≤ n → Mpi.Reach cap procs plus minus s →
          ∃ s, Mpi.Reach cap procs plus minus s ∧ Mpi.Final s := by
        intro n
        induction n with
        | zero =>
          intro s hn hs
          rcases Mpi.C12_progress_partial U hcap hs with f | ⟨s', st⟩
          · exact ⟨s, hs, f⟩
          · have := Mpi.C12_terminates hs st
            omega
        | succ n ih =>
          intro s hn hs
          rcases Mpi.C12_progress_partial U hcap hs with f | ⟨s', st⟩
          · exact ⟨s, hs, f⟩
          · have := Mpi.C12_terminates hs st
            exact ih s' (by omega) (hs.step st)
      exact this _ _ le_rfl Mpi.Reach.start
    have ex : ∀ k, ∃ N, k < procs → (loop (addItem Mpi.addMinus (P k) domR 0 cs) (if 0 < k then s.got k (k - 1) else []) (M k) >>=
        loop (addItem Mpi.addPlus (P k) domR (domZ - 1) cs) (if k + 1 < procs then s.got k (k + 1) else [])) = .ok N := by
      intro k
      by_cases hk : k < procs
      · obtain ⟨d1, d2⟩ := del plus minus s (fun _ _ => ⟨rfl, rfl⟩) hs hF k hk
        obtain ⟨N, e, _⟩ := adds k hk
        exact ⟨N, fun _ => by rw [d1, d2, e]⟩
      · exact ⟨fun _ _ _ _ _ => 0, fun n => absurd n hk⟩
    choose N hN using ex
    exact ⟨N, plus, minus, fun k hk => ⟨(hip k hk).1, (him k hk).1⟩, s, hs, hF, hN⟩

end

end Yee
end Pico
