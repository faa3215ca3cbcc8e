import Verif.Model.Base

/-! Helper lemmas on outcomes, loops and index lists. -/

namespace Pico

theorem loop_nil {ι σ : Type _} (body : ι → σ → Res σ) (s : σ) :
    loop body [] s = .ok s := rfl

theorem loop_cons {ι σ : Type _} (body : ι → σ → Res σ) (i : ι) (l : List ι) (s : σ) :
    loop body (i :: l) s = body i s >>= loop body l := rfl

theorem loop_append {ι σ : Type _} (body : ι → σ → Res σ) (l₁ l₂ : List ι) (s : σ) :
    loop body (l₁ ++ l₂) s = loop body l₁ s >>= loop body l₂ := by
  induction l₁ generalizing s with
  | nil => rfl
  | cons a l ih =>
    simp only [List.cons_append, loop_cons]
    cases h : body a s with
    | ok t => simp [ih]
    | fatal => rfl
    | ub => rfl

/-- If under an invariant every loop body runs to completion as a pure function,
so does the loop. -/
theorem loop_eq_foldl {ι σ : Type _} (body : ι → σ → Res σ) (pb : σ → ι → σ)
    (Inv : σ → Prop) (l : List ι)
    (hb : ∀ i ∈ l, ∀ s, Inv s → body i s = .ok (pb s i))
    (hi : ∀ i ∈ l, ∀ s, Inv s → Inv (pb s i)) (s : σ) (hs : Inv s) :
    loop body l s = .ok (l.foldl pb s) ∧ Inv (l.foldl pb s) := by
  induction l generalizing s with
  | nil => exact ⟨rfl, hs⟩
  | cons a l ih =>
    have h := ih (fun i m => hb i (List.mem_cons_of_mem _ m))
      (fun i m => hi i (List.mem_cons_of_mem _ m)) (pb s a)
      (hi a (List.mem_cons_self) s hs)
    rw [loop_cons, hb a (List.mem_cons_self) s hs, Res.ok_bind]
    exact h

/-- A fold whose steps act on pairwise disjoint sets of locations ("step `a`
owns location `x`"): the value at an owned location is what its owner computes
from the *initial* state, all other locations (inside the observed set `A`)
keep their value. -/
theorem foldl_footprint {ι L V : Type _} (A : L → Prop) (own : L → ι → Prop)
    (step : (L → V) → ι → (L → V)) (l : List ι)
    (hframe : ∀ a ∈ l, ∀ s x, A x → ¬ own x a → step s a x = s x)
    (hlocal : ∀ a ∈ l, ∀ s s' : L → V, (∀ x, A x → own x a → s x = s' x) →
      ∀ x, A x → own x a → step s a x = step s' a x)
    (huniq : ∀ x, A x → ∀ a ∈ l, ∀ b ∈ l, own x a → own x b → a = b)
    (nd : l.Nodup) (s : L → V) :
    (∀ a ∈ l, ∀ x, A x → own x a → l.foldl step s x = step s a x) ∧
    (∀ x, A x → (∀ a ∈ l, ¬ own x a) → l.foldl step s x = s x) := by
  induction l generalizing s with
  | nil => exact ⟨fun a h => by simp at h, fun x _ _ => rfl⟩
  | cons b l ih =>
    have ih' := ih (fun a m => hframe a (List.mem_cons_of_mem _ m))
      (fun a m => hlocal a (List.mem_cons_of_mem _ m))
      (fun x hx a m b m' => huniq x hx a (List.mem_cons_of_mem _ m) b (List.mem_cons_of_mem _ m'))
      (List.nodup_cons.mp nd).2 (step s b)
    have hb : b ∈ b :: l := List.mem_cons_self
    refine ⟨?_, ?_⟩
    · intro a ha x hx ho
      rcases List.mem_cons.mp ha with rfl | ha'
      · -- owner is the head: later steps do not own it
        simp only [List.foldl_cons]
        rw [ih'.2 x hx]
        intro c hc hoc
        have := huniq x hx a hb c (List.mem_cons_of_mem _ hc) ho hoc
        subst this
        exact (List.nodup_cons.mp nd).1 hc
      · simp only [List.foldl_cons]
        rw [ih'.1 a ha' x hx ho]
        refine hlocal a ha (step s b) s ?_ x hx ho
        intro y hy hoy
        refine hframe b hb s y hy ?_
        intro hob
        have := huniq y hy a ha b hb hoy hob
        subst this
        exact (List.nodup_cons.mp nd).1 ha'
    · intro x hx hno
      simp only [List.foldl_cons]
      rw [ih'.2 x hx (fun a m => hno a (List.mem_cons_of_mem _ m))]
      exact hframe b hb s x hx (hno b hb)

theorem mem_idx2 {a b c d : Nat} {p : Nat × Nat} :
    p ∈ idx2 a b c d ↔ (a ≤ p.1 ∧ p.1 < b) ∧ (c ≤ p.2 ∧ p.2 < d) := by
  obtain ⟨i, j⟩ := p
  simp only [idx2, List.mem_flatMap, List.mem_range'_1, List.mem_map, Prod.mk.injEq]
  constructor
  · rintro ⟨i', hi, j', hj, rfl, rfl⟩
    omega
  · rintro ⟨h₁, h₂⟩
    exact ⟨i, by omega, j, by omega, rfl, rfl⟩

theorem nodup_flatMap_pairs (l₁ l₂ : List Nat) (h₁ : l₁.Nodup) (h₂ : l₂.Nodup) :
    (l₁.flatMap fun i => l₂.map fun j => (i, j)).Nodup := by
  induction l₁ with
  | nil => simp
  | cons a l ih =>
    rw [List.flatMap_cons, List.nodup_append]
    have hn := List.nodup_cons.mp h₁
    refine ⟨?_, ih hn.2, ?_⟩
    · exact List.Pairwise.map _ (by intro x y hxy h; exact hxy (Prod.mk.inj h).2) h₂
    · intro x hx y hy hxy
      simp only [List.mem_map, List.mem_flatMap] at hx hy
      obtain ⟨_, _, rfl⟩ := hx
      obtain ⟨c, hc, _, _, rfl⟩ := hy
      rw [(Prod.mk.inj hxy).1] at hn
      exact hn.1 hc

theorem nodup_idx2 (a b c d : Nat) : (idx2 a b c d).Nodup :=
  nodup_flatMap_pairs _ _ List.nodup_range' List.nodup_range'

end Pico
