import Verif.Props.CollidePass

/-! Property C102: the masses and charges of the collisions are those of the species called electrons and ions. -/

namespace Pico
namespace Coll

/-- `s` is the last species of the list whose name is `a` or `b`. -/
def LastOf (a b : String) (sp : List (String × ℝ × ℝ)) (s : String × ℝ × ℝ) : Prop :=
  ∃ l r, sp = l ++ s :: r ∧ (s.1 = a ∨ s.1 = b) ∧ ∀ t ∈ r, t.1 ≠ a ∧ t.1 ≠ b

theorem lastNamed_append (a b : String) (l r : List (String × ℝ × ℝ)) (hr : ∀ t ∈ r, t.1 ≠ a ∧ t.1 ≠ b) : lastNamed a b (l ++ r) = lastNamed a b l := by
  unfold lastNamed
  rw [List.foldl_append]
  generalize List.foldl _ none l = x
  induction r generalizing x with
  | nil => rfl
  | cons s r ih =>
    have := hr s (by simp)
    rw [List.foldl_cons, if_neg (by tauto)]
    exact ih (fun t ht => hr t (by simp [ht])) x

theorem lastNamed_eq {a b : String} {sp : List (String × ℝ × ℝ)} {s : String × ℝ × ℝ} (h : LastOf a b sp s) : lastNamed a b sp = some s.2 := by
  obtain ⟨l, r, rfl, hs, hr⟩ := h
  rw [show l ++ s :: r = (l ++ [s]) ++ r by simp, lastNamed_append a b _ r hr]
  unfold lastNamed
  rw [List.foldl_append]
  exact if_pos hs

/-- C102: the electrons of the collisions have mass and charge of the last species called electrons, the ions those of the last species
called ions. -/
theorem C102_names {sp : List (String × ℝ × ℝ)} {e i : String × ℝ × ℝ} (he : LastOf "electrons" "Electrons" sp e) (hi : LastOf "ions" "Ions" sp i) :
    kindsOf sp = .ok ⟨e.2.1, i.2.1, e.2.2, i.2.2⟩ := by
  unfold kindsOf
  rw [lastNamed_eq he, lastNamed_eq hi]

/-- Three species, the ions first; the beam takes no part. -/
example : kindsOf [("Ions", 2000, 1), ("beam", 7, 3), ("electrons", 1, -1)] = .ok ⟨1, 2000, -1, 1⟩ :=
  C102_names (e := ("electrons", 1, -1)) (i := ("Ions", 2000, 1)) ⟨[("Ions", 2000, 1), ("beam", 7, 3)], [], rfl, by simp, by simp⟩ ⟨[], _, rfl, by simp, by simp⟩

end Coll
end Pico
