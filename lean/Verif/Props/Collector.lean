import Mathlib.Data.List.Perm.Basic
import Verif.Lemmas.Collector
import Verif.Props.Tiling

/-! # C09, C10 — hand-over of particles between domains -/

namespace Pico
namespace SMB

/-- The domain rectangle contains the particle's cell. -/
def CellDims.Owns (d : CellDims) (o : Prt) : Prop :=
  ((d.r0 : Int) ≤ o.r ∧ o.r < d.r1) ∧ ((d.z0 : Int) ≤ o.z ∧ o.z < d.z1)

instance (d : CellDims) (o : Prt) : Decidable (d.Owns o) := by
  unfold CellDims.Owns; infer_instance

/-- All particles which domain `(i, j)` stores under species identifier `id`. -/
def parts (D : Doms) (i j id : Nat) : List Prt :=
  ((D i j).filter (fun sp => sp.id = id)).flatMap Sp.parts

/-- All domain indices, row by row. -/
def allDoms (g : Geo) : List (Nat × Nat) := idx2 0 g.domR 0 g.domZ

theorem sp_rep (sps : List Sp) (nd : (sps.map Sp.id).Nodup) :
    sps = (sps.map Sp.id).map fun id => ⟨id, (sps.filter (fun sp => sp.id = id)).flatMap Sp.parts⟩ := by
  rw [List.map_map]
  apply List.ext_getElem (by simp)
  intro n h1 h2
  rw [List.getElem_map]
  have hf : sps.filter (fun sp => sp.id = sps[n].id) = [sps[n]] := by
    clear h2
    induction sps generalizing n with
    | nil => simp at h1
    | cons a l ih =>
      rw [List.map_cons, List.nodup_cons] at nd
      cases n with
      | zero =>
        simp only [List.getElem_cons_zero]
        rw [List.filter_cons_of_pos (by simp)]
        congr 1
        rw [List.filter_eq_nil_iff]
        intro b hb
        simp only [decide_eq_true_eq]
        intro e
        exact nd.1 (e ▸ List.mem_map_of_mem hb)
      | succ n =>
        simp only [List.getElem_cons_succ]
        have hn : n < l.length := by simpa using h1
        rw [List.filter_cons_of_neg]
        · exact ih nd.2 n hn
        · simp only [decide_eq_true_eq]
          intro e
          apply nd.1
          rw [e]
          exact List.mem_map_of_mem (List.getElem_mem hn)
  simp only [Function.comp]
  rw [hf]
  simp

theorem doms_rep (D : Doms) (ids : List Nat) (nd : ids.Nodup)
    (hD : ∀ i j, (D i j).map Sp.id = ids) : D = ofF ids (fun i j id => parts D i j id) := by
  funext i j
  have h := sp_rep (D i j) (by rw [hD]; exact nd)
  rw [hD] at h
  exact h

theorem parts_ofF (ids : List Nat) (nd : ids.Nodup) (f : PF) (i j id : Nat) (h : id ∈ ids) :
    parts (ofF ids f) i j id = f i j id := by
  unfold parts ofF
  induction ids with
  | nil => simp at h
  | cons a l ih =>
    obtain ⟨na, nl⟩ := List.nodup_cons.mp nd
    rw [List.map_cons]
    by_cases e : a = id
    · subst e
      rw [List.filter_cons_of_pos (by simp), List.flatMap_cons]
      have : (l.map fun id => (⟨id, f i j id⟩ : Sp)).filter (fun sp => sp.id = a) = [] := by
        rw [List.filter_eq_nil_iff]
        intro b hb
        obtain ⟨c, hc, rfl⟩ := List.mem_map.mp hb
        simp only [decide_eq_true_eq]
        rintro rfl
        exact na hc
      rw [this]
      simp
    · rw [List.filter_cons_of_neg (by simpa using e)]
      exact ih nl (by
        rcases List.mem_cons.mp h with h | h
        · exact absurd h.symm e
        · exact h)

theorem owns_iff {g : Geo} {A B : Nat} (E : Even g A B) (i j : Nat) (hi : i < g.domR)
    (hj : j < g.domZ) (o : Prt) : (domDims g i j).Owns o ↔ own g A B o = some (i, j) := by
  rw [dims_even E i j hi hj]
  unfold CellDims.Owns
  dsimp only
  have hA := E.A_pos
  have hB := E.B_pos
  have m1 := Nat.mul_le_mul_left A (show i + 1 ≤ g.domR by omega)
  have m2 := Nat.mul_le_mul_left B (show j + 1 ≤ g.domZ by omega)
  rw [← E.nr] at m1
  rw [← E.nz] at m2
  constructor
  · rintro ⟨⟨h1, h2⟩, h3, h4⟩
    have e : own g A B o = some (o.r.toNat / A, o.z.toNat / B) := if_pos (by omega)
    rw [e]
    congr 2
    · apply Nat.div_eq_of_lt_le
      · rw [Nat.mul_comm]; omega
      · rw [Nat.mul_comm]; omega
    · apply Nat.div_eq_of_lt_le
      · rw [Nat.mul_comm]; omega
      · rw [Nat.mul_comm]; omega
  · intro h
    unfold own at h
    split at h
    · rename_i hc
      obtain ⟨e1, e2⟩ := Prod.mk.inj (Option.some.inj h)
      have a1 := Nat.div_mul_le_self o.r.toNat A
      have a2 := Nat.lt_div_mul_add (a := o.r.toNat) hA
      have b1 := Nat.div_mul_le_self o.z.toNat B
      have b2 := Nat.lt_div_mul_add (a := o.z.toNat) hB
      rw [e1, Nat.mul_comm] at a1 a2
      rw [e2, Nat.mul_comm] at b1 b2
      rw [Nat.mul_succ, Nat.mul_succ]
      omega
    · exact absurd h (by simp)

/-- Hand-over of particles when the number of domains divides the number of cells
along both axes, there is no MPI offset and all domains carry the same species with
distinct identifiers: the hand-over neither aborts nor is undefined, and afterwards
each domain stores, under each species, exactly the particles (with multiplicity) of
that species of all domains whose cell lies in the domain.  In particular none is
lost or duplicated, none changes species, and exactly those whose cell is in no
domain disappear.

Missing from the full statement (false, see `C09_uneven_*`): domain counts that do
not divide the cell counts.  (`D i j` for indices outside the domain matrix do not
exist in the program; the hypothesis on them is a convention.) -/
theorem C09_handover_partial (g : Geo) (hnr : 0 < g.nr)
    (hnz : 0 < g.nz) (hdr : g.domR ∣ g.nr) (hdz : g.domZ ∣ g.nz)
    (ho : g.offR = 0 ∧ g.offZ = 0) (ids : List Nat) (nd : ids.Nodup) (D : Doms)
    (hD : ∀ i j, (D i j).map Sp.id = ids) :
    ∃ D', collect g D = .ok D' ∧ (∀ i j, (D' i j).map Sp.id = ids) ∧
      ∀ i j id, i < g.domR → j < g.domZ → id ∈ ids →
        (parts D' i j id).Perm ((allDoms g).flatMap fun p =>
          (parts D p.1 p.2 id).filter fun o => (domDims g i j).Owns o) := by
  obtain ⟨A, hA⟩ := hdr
  obtain ⟨B, hB⟩ := hdz
  rw [Nat.mul_comm] at hA hB
  have E : Even g A B := ⟨hA, hB, Nat.pos_of_ne_zero (by rintro rfl; omega),
    Nat.pos_of_ne_zero (by rintro rfl; omega), ho.1, ho.2⟩
  have hrep := doms_rep D ids nd hD
  refine ⟨_, by rw [hrep]; exact collect_even E ids nd _, ?_, ?_⟩
  · intro i j; simp [ofF, List.map_map, Function.comp_def]
  · intro i j id hi hj hid
    rw [parts_ofF ids nd _ i j id hid]
    have hmem : (i, j) ∈ sweep g.domR g.domZ := mem_sweep.mpr ⟨hi, hj⟩
    obtain ⟨k1, k2⟩ := fold_stepF g A B (sweep g.domR g.domZ) (nodup_sweep _ _)
      (fun a b => parts D a b id) i j
    rw [if_pos hmem] at k2
    -- nothing alien remains
    have hall : mine g A B i j ((sweep g.domR g.domZ).foldl (stepF g A B)
        (fun a b => parts D a b id) i j)
        = (sweep g.domR g.domZ).foldl (stepF g A B) (fun a b => parts D a b id) i j := by
      unfold mine
      rw [List.filter_eq_self]
      intro o hom
      have := List.filter_eq_nil_iff.mp k2 o hom
      simpa using this
    rw [hall] at k1
    refine k1.trans ?_
    have hmine : ∀ l : List Prt, l.filter (fun o => (domDims g i j).Owns o) = mine g A B i j l := by
      intro l
      unfold mine
      apply List.filter_congr
      intro o _
      simp only [owns_iff E i j hi hj o]
    simp only [hmine]
    -- both sides are the concatenation over all domains
    have hperm : (allDoms g).Perm ((i, j) :: (sweep g.domR g.domZ).filter (fun p => p ≠ (i, j))) := by
      have h1 : (allDoms g).Perm (sweep g.domR g.domZ) := by
        unfold allDoms
        rw [List.perm_ext_iff_of_nodup (nodup_idx2 _ _ _ _) (nodup_sweep _ _)]
        rintro ⟨a, b⟩
        rw [mem_idx2, mem_sweep]
        dsimp only
        omega
      refine h1.trans ?_
      have h2 := List.perm_cons_erase hmem
      rw [List.Nodup.erase_eq_filter (nodup_sweep _ _)] at h2
      refine h2.trans (List.Perm.of_eq ?_)
      congr 1
      apply List.filter_congr
      intro p _
      by_cases e : p = (i, j) <;> simp [e]
    refine ((hperm.flatMap_right _).trans ?_).symm
    rw [List.flatMap_cons]

/-- 8 × 8 cells, 4 × 2 domains, no walls. -/
def exEven : Geo :=
  { nr := 8, nz := 8, offR := 0, offZ := 0, domR := 4, domZ := 2,
    walls := ⟨true, true, true, true⟩, gnr := 8, gnz := 8, pmlZ0 := 0, pmlR := 0, pmlZ := 0 }

/-- Two species; particles in the lower left domain that wandered off. -/
def exDoms : Doms := fun i j =>
  [⟨7, if i = 0 ∧ j = 0 then [⟨0, 0, 1⟩, ⟨2, 5, 2⟩, ⟨-1, 3, 3⟩, ⟨7, 7, 4⟩] else []⟩, ⟨9, []⟩]

-- non-vacuity and an example of the effect
example : (0 < exEven.domR ∧ exEven.domR ∣ exEven.nr ∧ exEven.domZ ∣ exEven.nz ∧
      [7, 9].Nodup) ∧ (∀ i j, (exDoms i j).map Sp.id = [7, 9]) ∧
    (collect exEven exDoms >>= fun D' => .ok (D' 0 0, D' 1 1, D' 3 1))
      = Res.ok ([⟨7, [⟨0, 0, 1⟩]⟩, ⟨9, []⟩], [⟨7, [⟨2, 5, 2⟩]⟩, ⟨9, []⟩],
        [⟨7, [⟨7, 7, 4⟩]⟩, ⟨9, []⟩]) := by
  refine ⟨by decide, fun i j => rfl, by decide⟩

/-- 9 cells along r in 2 domains: cells 0-3 and 4-8. -/
def exOdd : Geo :=
  { nr := 9, nz := 4, offR := 0, offZ := 0, domR := 2, domZ := 1,
    walls := ⟨true, true, true, true⟩, gnr := 9, gnz := 4, pmlZ0 := 0, pmlR := 0, pmlZ := 0 }

/-- One species, one particle `o` in domain `(i₀, 0)`. -/
def single (i₀ : Nat) (o : Prt) : Doms := fun i j =>
  [⟨7, if i = i₀ ∧ j = 0 then [o] else []⟩]

/-- Uneven division, 1: a particle that stays in its own domain `(1, 0)` (cell 4 belongs
to it) is handed to domain `(0, 0)`, which does not own the cell. -/
theorem C09_uneven_wrong_domain :
    (domDims exOdd 1 0).Owns ⟨4, 0, 1⟩ ∧
    (collect exOdd (single 1 ⟨4, 0, 1⟩) >>= fun D' => .ok (D' 0 0, D' 1 0))
      = Res.ok ([⟨7, [⟨4, 0, 1⟩]⟩], [⟨7, []⟩]) := by
  refine ⟨by decide, by decide⟩

/-- Uneven division, 2: a particle of domain `(0, 0)` in the last cell row of the area
is handed to domain index 2 of 2: undefined behaviour. -/
theorem C09_uneven_ub :
    (domDims exOdd 1 0).Owns ⟨8, 0, 1⟩ ∧
    (∀ D', collect exOdd (single 0 ⟨8, 0, 1⟩) ≠ .ok D') := by
  have h : collect exOdd (single 0 ⟨8, 0, 1⟩) = .ub := rfl
  refine ⟨by decide, fun D' => ?_⟩
  rw [h]
  exact fun e => nomatch e

/-- More domains than cells: a domain without cells makes the hand-over of any
particle stored there a division by zero. -/
theorem C09_empty_domain_ub (g : Geo) (i j : Nat) (o : Prt)
    (h : (domDims g i j).r1 = (domDims g i j).r0) (sp : Sp) (rest : List Sp) (D : Doms)
    (hD : D i j = ⟨sp.id, o :: sp.parts⟩ :: rest) :
    collectDom g (i, j) D = .ub := by
  unfold collectDom
  dsimp only
  rw [hD]
  rw [List.length_cons, List.range_succ_eq_map, loop_cons]
  unfold collectSp
  rw [hD]
  simp only [List.getElem?_cons_zero]
  rw [loop_cons]
  have : classify g i j ((domDims g i j).r1 - (domDims g i j).r0)
      ((domDims g i j).z1 - (domDims g i j).z0) o = .ub := by
    unfold classify
    rw [if_pos (Or.inl (by omega))]
  unfold collectOne
  rw [this]
  rfl

/-- Two species with the same identifier (which the hash can produce, see C10): a
particle handed over is duplicated. -/
theorem C09_same_id_duplicates :
    let D : Doms := fun i j => [⟨7, if i = 0 ∧ j = 0 then [⟨7, 7, 1⟩] else []⟩, ⟨7, []⟩]
    (collect exEven D >>= fun D' => .ok (D' 3 1))
      = Res.ok [⟨7, [⟨7, 7, 1⟩]⟩, ⟨7, [⟨7, 7, 1⟩]⟩] := by decide

/-! ## C10 -/

/-- The claim "different names, different identifiers" is false: distinct names the
configuration reader accepts share an identifier. -/
theorem C10_collision :
    ("aa" ≠ "FW" ∧ specieId "aa" = specieId "FW") ∧
    ("electrons_cold" ≠ "Ne77" ∧ specieId "electrons_cold" = specieId "Ne77") := by decide

/-- What does hold: names that differ only in the last character get different
identifiers (all characters below 256). -/
theorem C10_last_char_partial (salt : Nat) (s : List Nat) (c d : Nat)
    (hc : c < 256) (hd : d < 256) (h : hashStr salt (s ++ [c]) = hashStr salt (s ++ [d])) :
    c = d := by
  unfold hashStr at h
  rw [List.foldl_append, List.foldl_append] at h
  simp only [List.foldl_cons, List.foldl_nil] at h
  generalize hr : s.foldl (fun ret c => (ret ^^^ ((ret <<< 5) + c + (ret >>> 2))) % 65536) salt = r at h
  have h2 : ∀ x y : Nat, (x ^^^ y) % 65536 = (x % 65536) ^^^ (y % 65536) := fun x y => by
    have := @Nat.xor_mod_two_pow x y 16
    simpa using this
  rw [h2, h2] at h
  have h3 : ((r <<< 5) + c + (r >>> 2)) % 65536 = ((r <<< 5) + d + (r >>> 2)) % 65536 := by
    have := congrArg (fun x => (r % 65536) ^^^ x) h
    simpa [← Nat.xor_assoc] using this
  omega

example : specieId "ions1" ≠ specieId "ions2" := by decide

end SMB
end Pico
