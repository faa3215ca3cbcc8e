import Verif.Props.Threads

/-! Property C11: which domains the threads of one loop of the hand-over access. -/

namespace Pico
namespace Threads

open SMB Yee Pic

/-- **C11.**  If no domain gets particles from both sides, no two rows of domains that are visited at the same time access the particles of the
same domain.  Full statement (false, `C11_race_fails`): without this condition. -/
theorem C11_rows_partial (g : Geo) (hnr : 0 < g.nr) (hnz : 0 < g.nz) (hdr : g.domR ∣ g.nr) (hdz : g.domZ ∣ g.nz)
    (ho : g.offR = 0 ∧ g.offZ = 0) (ids : List Nat) (nd : ids.Nodup) (D : Doms) (hD : ∀ i j, (D i j).map Sp.id = ids) (Ap : Apart g D)
    {c : Nat × Nat} {i i' : Nat} (hi : i ∈ stride c.1 g.domR) (hi' : i' ∈ stride c.1 g.domR) (ne : i ≠ i') (q : Nat × Nat) :
    ¬ (touched g c D i q ∧ touched g c D i' q) := by
  obtain ⟨A, hA⟩ := hdr
  obtain ⟨B, hB⟩ := hdz
  rw [Nat.mul_comm] at hA hB
  have Ev : SMB.Even g A B := ⟨hA, hB, Nat.pos_of_ne_zero (by rintro rfl; omega), Nat.pos_of_ne_zero (by rintro rfl; omega), ho.1, ho.2⟩
  have e := doms_rep D ids nd hD
  rw [e] at Ap ⊢
  exact apart_touched Ev Ap c hi hi' ne q

/-- **C11**, chambers with one or two rows of domains: there is only one row in each loop. -/
theorem C11_two_rows (g : Geo) (h : g.domR ≤ 2) {c : Nat × Nat} {i i' : Nat} (hi : i ∈ stride c.1 g.domR) (hi' : i' ∈ stride c.1 g.domR) : i = i' := by
  rw [mem_stride] at hi hi'
  omega

/-- **C11**, refuted for every division into three or more rows of domains: whenever a particle of domain `(i, j)` and one of domain `(i + 2, j)`
have both moved to domain `(i + 1, j')`, the two rows are visited at the same time and both append to its list. -/
theorem C11_race_fails (g : Geo) (hnr : 0 < g.nr) (hnz : 0 < g.nz) (hdr : g.domR ∣ g.nr) (hdz : g.domZ ∣ g.nz)
    (ho : g.offR = 0 ∧ g.offZ = 0) {i j j' : Nat} (hi : i + 2 < g.domR) (hj : j < g.domZ) (hj' : j' < g.domZ) (D : Doms)
    (h1 : ∃ sp ∈ D i j, ∃ o ∈ sp.parts, (domDims g (i + 1) j').Owns o) (h2 : ∃ sp ∈ D (i + 2) j, ∃ o ∈ sp.parts, (domDims g (i + 1) j').Owns o) :
    ∃ c ∈ colours, (i, j) ∈ colour g.domR g.domZ c ∧ (i + 2, j) ∈ colour g.domR g.domZ c ∧
      touched g c D i (i + 1, j') ∧ touched g c D (i + 2) (i + 1, j') := by
  obtain ⟨A, hA⟩ := hdr
  obtain ⟨B, hB⟩ := hdz
  rw [Nat.mul_comm] at hA hB
  have Ev : SMB.Even g A B := ⟨hA, hB, Nat.pos_of_ne_zero (by rintro rfl; omega), Nat.pos_of_ne_zero (by rintro rfl; omega), ho.1, ho.2⟩
  obtain ⟨sp, m1, o, m2, w⟩ := h1
  obtain ⟨sp', m1', o', m2', w'⟩ := h2
  have w := (owns_iff Ev _ _ (by omega) hj' o).1 w
  have w' := (owns_iff Ev _ _ (by omega) hj' o').1 w'
  refine ⟨(i % 2, j % 2), ?_, mem_colour.2 ⟨⟨by omega, hj⟩, rfl, rfl⟩, mem_colour.2 ⟨⟨by omega, hj⟩, by show (i + 2) % 2 = i % 2; omega, rfl⟩,
    Or.inr ⟨j, mem_stride.2 ⟨hj, rfl⟩, sp, m1, _, m2, ?_⟩, Or.inr ⟨j, mem_stride.2 ⟨hj, rfl⟩, sp', m1', _, m2', ?_⟩⟩
  · rcases Nat.mod_two_eq_zero_or_one i with a | a <;> rcases Nat.mod_two_eq_zero_or_one j with b | b <;> rw [a, b] <;> decide
  · exact (classify_own Ev (by omega) hj _ _).2 ⟨w, by simp⟩
  · exact (classify_own Ev (by omega) hj _ _).2 ⟨w', by simp⟩

/-! ### Non-vacuity -/

/-- Two particles that meet. -/
example : ∃ c ∈ colours, (0, 0) ∈ colour exEven.domR exEven.domZ c ∧ (2, 0) ∈ colour exEven.domR exEven.domZ c ∧
    touched exEven c (ofF [7] exMeet) 0 (1, 0) ∧ touched exEven c (ofF [7] exMeet) 2 (1, 0) :=
  C11_race_fails exEven (by decide) (by decide) (by decide) (by decide) ⟨rfl, rfl⟩ (i := 0) (j := 0) (j' := 0) (by decide) (by decide) (by decide) _
    ⟨⟨7, [⟨3, 0, 0⟩]⟩, by decide, ⟨3, 0, 0⟩, by decide, by decide⟩ ⟨⟨7, [⟨3, 0, 2⟩]⟩, by decide, ⟨3, 0, 2⟩, by decide, by decide⟩

/-- A particle that moves between three rows without meeting another one. -/
example : Apart exEven (ofF [7] fun a b _ => if a = 0 ∧ b = 0 then [⟨3, 0, 0⟩] else []) := by
  intro i j i' j' hi hi' hj hj' ne par sp hsp o ho q q1 q2 qo qn
  obtain ⟨id, hid, rfl⟩ := mem_ofF.1 hsp
  dsimp only at ho
  split_ifs at ho with c
  · obtain ⟨rfl, rfl⟩ := c
    obtain rfl := List.mem_singleton.1 ho
    have w := (owns_iff exEven_even _ _ q1 q2 _).1 qo
    have e : q = (1, 0) := (Option.some.inj (w.symm.trans (by decide : own exEven 2 4 ⟨3, 0, 0⟩ = some (1, 0))))
    subst e
    refine ⟨by show 1 ≠ i'; omega, fun sp' hsp' o' ho' => ?_⟩
    obtain ⟨id', _, rfl⟩ := mem_ofF.1 hsp'
    dsimp only at ho'
    rw [if_neg (by omega)] at ho'
    cases ho'
  · cases ho

end Threads
end Pico
