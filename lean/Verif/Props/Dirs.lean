import Verif.Props.Text

/-! # C58: creation of the output directory -/

set_option linter.unusedSimpArgs false
set_option linter.unusedVariables false
set_option linter.unusedSectionVars false

namespace Pico
namespace Help

/-! ### Specification -/

/-- A usual path: names with single slashes between them and, if absolute, one in front. -/
def pathOf (p : Place) : List Char := (if p.abs then ['/'] else []) ++ joinWith '/' p.names

/-- Names are not empty and contain no slash. -/
def Proper (p : Place) : Prop := ∀ n ∈ p.names, n ≠ [] ∧ '/' ∉ n

/-- A file system as it can be: what exists lies in a directory. -/
def FS.WF (fs : FS) : Prop := ∀ (abs : Bool) (l : List (List Char)) (n : List Char),
  fs.node ⟨abs, l ++ [n]⟩ ≠ none → fs.node ⟨abs, l⟩ = some .dir

/-! ### Paths -/

theorem joinWith_head (l : List (List Char)) (hl : ∀ n ∈ l, n ≠ [] ∧ '/' ∉ n) : (joinWith '/' l).head? ≠ some '/' :=
  (joinWith_clean '/' l hl).1

theorem resolve_pathOf (p : Place) (hp : Proper p) : resolve (pathOf p) = p := by
  obtain ⟨abs, names⟩ := p
  cases abs with
  | false =>
    have h1 := joinWith_head names hp
    simp only [resolve, pathOf, Bool.false_eq_true, if_false, List.nil_append]
    rw [splitRest_join '/' names hp]
    simp [h1]
  | true =>
    simp only [resolve, pathOf, if_true, List.cons_append, List.nil_append, List.head?_cons]
    rw [splitRest_delim, splitRest_join '/' names hp]
    simp

theorem joinWith_snoc (d : Char) (l : List (List Char)) (n : List Char) (hl : l ≠ []) :
    joinWith d (l ++ [n]) = joinWith d l ++ d :: n := by
  induction l with
  | nil => exact absurd rfl hl
  | cons p l ih =>
    cases l with
    | nil => rfl
    | cons q l =>
      have := ih (by simp)
      show p ++ d :: joinWith d (q :: l ++ [n]) = _
      rw [this]
      show _ = (p ++ d :: joinWith d (q :: l)) ++ d :: n
      simp

theorem parentPath_append (s n : List Char) (hn : '/' ∉ n) : parentPath (s ++ '/' :: n) = some s := by
  unfold parentPath
  have h : (s ++ '/' :: n).reverse = n.reverse ++ '/' :: s.reverse := by simp
  rw [h, List.dropWhile_append_of_pos, List.dropWhile_cons_of_neg (by simp)]
  · simp
  · intro x hx
    have : x ≠ '/' := fun e => hn (by rw [← e]; simpa using hx)
    simpa using this

theorem parentPath_pathOf (abs : Bool) (l : List (List Char)) (n : List Char) (hl : l ≠ []) (hn : '/' ∉ n) :
    parentPath (pathOf ⟨abs, l ++ [n]⟩) = some (pathOf ⟨abs, l⟩) := by
  unfold pathOf
  simp only
  rw [joinWith_snoc '/' l n hl, ← List.append_assoc]
  exact parentPath_append _ n hn

theorem pathOf_ne (abs : Bool) (l : List (List Char)) (hl : l ≠ []) (hp : ∀ n ∈ l, n ≠ [] ∧ '/' ∉ n) :
    pathOf ⟨abs, l⟩ ≠ [] := by
  have := joinWith_ne '/' l hp hl
  unfold pathOf
  simp [this]

/-! ### The file system -/

theorem node_prefix {fs : FS} (hw : fs.WF) (abs : Bool) (l m : List (List Char)) (h : fs.node ⟨abs, l ++ m⟩ ≠ none) (hm : m ≠ []) :
    fs.node ⟨abs, l⟩ = some .dir := by
  induction m using List.reverseRecOn with
  | nil => exact absurd rfl hm
  | append_singleton m n ih =>
    rw [← List.append_assoc] at h
    have := hw abs (l ++ m) n h
    by_cases hm' : m = []
    · subst hm'
      simpa using this
    · exact ih (by rw [this]; simp) hm'

theorem walk_cases (fs : FS) (hw : fs.WF) (abs : Bool) (rest : List (List Char)) : ∀ before,
    (fs.node ⟨abs, before⟩ = some .dir) →
    (walk fs abs before rest = .none ∧ fs.node ⟨abs, before ++ rest⟩ = some .dir) ∨
    (walk fs abs before rest = .enoent ∧ fs.node ⟨abs, before ++ rest⟩ = none) ∨
    (walk fs abs before rest = .other ∧ fs.node ⟨abs, before ++ rest⟩ ≠ some .dir ∧
      ∃ q, q <+: before ++ rest ∧ fs.node ⟨abs, q⟩ = some .file) := by
  induction rest with
  | nil => intro before hb; left; exact ⟨rfl, by simpa using hb⟩
  | cons n rest ih =>
    intro before hb
    have happ : before ++ n :: rest = (before ++ [n]) ++ rest := by simp
    cases h : fs.node ⟨abs, before ++ [n]⟩ with
    | none =>
      right; left
      refine ⟨by simp [walk, h], ?_⟩
      rw [happ]
      by_contra hne
      by_cases hr : rest = []
      · subst hr
        rw [List.append_nil] at hne
        exact hne h
      · have := node_prefix hw abs _ _ hne hr
        rw [h] at this
        cases this
    | some k =>
      cases k with
      | file =>
        right; right
        refine ⟨by simp [walk, h], ?_, before ++ [n], by rw [happ]; exact List.prefix_append _ _, h⟩
        rw [happ]
        intro hd
        by_cases hr : rest = []
        · subst hr
          rw [List.append_nil, h] at hd
          cases hd
        · have := node_prefix hw abs (before ++ [n]) rest (by rw [hd]; simp) hr
          rw [h] at this
          cases this
      | dir =>
        have := ih (before ++ [n]) h
        rw [happ]
        have hwalk : walk fs abs before (n :: rest) = walk fs abs (before ++ [n]) rest := by simp [walk, h]
        rw [hwalk]
        exact this

/-- `fs` with a directory at `p`. -/
def FS.put (fs : FS) (p : Place) : FS := { fs with at' := fun q => if q = p then some .dir else fs.at' q }

theorem put_node (fs : FS) (p q : Place) : (fs.put p).node q = if q = p then some .dir else fs.node q := by
  unfold FS.put FS.node
  by_cases h : q = p
  · subst h
    simp
  · simp [h]

theorem put_WF {fs : FS} (hw : fs.WF) (abs : Bool) (l : List (List Char)) (n : List Char) (h : fs.node ⟨abs, l⟩ = some .dir) :
    (fs.put ⟨abs, l ++ [n]⟩).WF := by
  intro abs' l' n' hne
  rw [put_node] at hne ⊢
  by_cases e : (⟨abs', l' ++ [n']⟩ : Place) = ⟨abs, l ++ [n]⟩
  · cases e1 : congrArg Place.abs e
    have e2 : l' ++ [n'] = l ++ [n] := congrArg Place.names e
    have e3 := List.append_inj' e2 rfl
    rw [e3.1]
    split
    · rfl
    · exact h
  · rw [if_neg e] at hne
    have := hw abs' l' n' hne
    split
    · rfl
    · exact this

/-- The four outcomes of `mkdir` for a usual path below `l`. -/
theorem mkdir_cases (fs : FS) (hw : fs.WF) (abs : Bool) (l : List (List Char)) (n : List Char) (path : List Char)
    (hne : path ≠ []) (hr : resolve path = ⟨abs, l ++ [n]⟩) :
    (mkdir fs path = (.none, fs.put ⟨abs, l ++ [n]⟩) ∧ fs.node ⟨abs, l⟩ = some .dir ∧ fs.node ⟨abs, l ++ [n]⟩ = none ∧
      fs.may ⟨abs, l⟩ = true) ∨
    (mkdir fs path = (.eexist, fs) ∧ fs.node ⟨abs, l⟩ = some .dir ∧ fs.node ⟨abs, l ++ [n]⟩ ≠ none) ∨
    (mkdir fs path = (.enoent, fs) ∧ fs.node ⟨abs, l⟩ = none) ∨
    (mkdir fs path = (.other, fs) ∧ fs.node ⟨abs, l ++ [n]⟩ = none ∧
      ((fs.node ⟨abs, l⟩ = some .dir ∧ fs.may ⟨abs, l⟩ = false) ∨ ∃ q, q <+: l ∧ fs.node ⟨abs, q⟩ = some .file)) := by
  have hnode0 : fs.node ⟨abs, []⟩ = some .dir := by simp [FS.node]
  have hw3 := walk_cases fs hw abs l [] hnode0
  simp only [List.nil_append] at hw3
  have hm : mkdir fs path = (match walk fs abs [] l with
      | .none =>
        match fs.node ⟨abs, l ++ [n]⟩ with
        | some _ => (.eexist, fs)
        | Option.none =>
          if fs.may ⟨abs, l⟩ then (.none, fs.put ⟨abs, l ++ [n]⟩) else (.other, fs)
      | e => (e, fs)) := by
    unfold mkdir
    rw [if_neg hne]
    simp only [hr]
    rw [if_neg (by simp), List.dropLast_concat]
    rfl
  have hchild : fs.node ⟨abs, l⟩ ≠ some .dir → fs.node ⟨abs, l ++ [n]⟩ = none := by
    intro h
    by_contra hc
    exact h (hw abs l n hc)
  rcases hw3 with ⟨a, b⟩ | ⟨a, b⟩ | ⟨a, b, c⟩
  · rw [a] at hm
    cases hN : fs.node ⟨abs, l ++ [n]⟩ with
    | some k =>
      right; left
      rw [hN] at hm
      exact ⟨hm, b, by simp⟩
    | none =>
      rw [hN] at hm
      simp only at hm
      by_cases hmay : fs.may ⟨abs, l⟩ = true
      · rw [if_pos hmay] at hm
        exact Or.inl ⟨hm, b, rfl, hmay⟩
      · rw [if_neg hmay] at hm
        exact Or.inr (Or.inr (Or.inr ⟨hm, rfl, Or.inl ⟨b, by simpa using hmay⟩⟩))
  · rw [a] at hm
    exact Or.inr (Or.inr (Or.inl ⟨hm, b⟩))
  · rw [a] at hm
    exact Or.inr (Or.inr (Or.inr ⟨hm, hchild b, Or.inr c⟩))

/-- All there is to know about a run without interference. -/
theorem makeDirectory_spec (abs : Bool) (l : List (List Char)) : ∀ fs : FS, fs.WF → l ≠ [] → (∀ n ∈ l, n ≠ [] ∧ '/' ∉ n) →
    ∀ r, makeDirectory id fs (pathOf ⟨abs, l⟩) = r →
      r.2.WF ∧ r.2.may = fs.may ∧ (r.1 = true ↔ r.2.node ⟨abs, l⟩ = some .dir) ∧
      (∀ q, r.2.node q = fs.node q ∨
        (fs.node q = none ∧ r.2.node q = some .dir ∧ q.abs = abs ∧ q.names <+: l)) ∧
      ((∀ q, q <+: l → fs.node ⟨abs, q⟩ ≠ some .file ∧ fs.may ⟨abs, q⟩ = true) → r.1 = true) := by
  induction l using List.reverseRecOn with
  | nil => intro _ _ h; exact absurd rfl h
  | append_singleton l n ih =>
    intro fs hw _ hp r hr
    have hn := hp n (by simp)
    have hres : resolve (pathOf ⟨abs, l ++ [n]⟩) = ⟨abs, l ++ [n]⟩ := resolve_pathOf _ hp
    have hne := pathOf_ne abs (l ++ [n]) (by simp) hp
    rw [makeDirectory] at hr
    rcases mkdir_cases fs hw abs l n _ hne hres with ⟨a, b, c, d⟩ | ⟨a, b, c⟩ | ⟨a, b⟩ | ⟨a, b, c⟩
    · rw [a] at hr
      simp only at hr
      subst hr
      refine ⟨put_WF hw abs l n b, rfl, ?_, ?_, fun _ => rfl⟩
      · rw [put_node, if_pos rfl]
        simp
      · intro q
        rw [put_node]
        by_cases e : q = ⟨abs, l ++ [n]⟩
        · right
          subst e
          exact ⟨c, if_pos rfl, rfl, List.prefix_rfl⟩
        · left
          rw [if_neg e]
    · rw [a] at hr
      simp only at hr
      subst hr
      refine ⟨hw, rfl, ?_, fun q => Or.inl rfl, ?_⟩
      · simp only [directoryExists, hres]
        simp
      · intro h
        have := (h (l ++ [n]) List.prefix_rfl).1
        simp only [directoryExists, hres]
        cases hN : fs.node ⟨abs, l ++ [n]⟩ with
        | none => exact absurd hN c
        | some k =>
          cases k with
          | file => exact absurd hN this
          | dir => simp
    · rw [a] at hr
      simp only at hr
      have hl : l ≠ [] := by
        rintro rfl
        simp [FS.node] at b
      have hpar := parentPath_pathOf abs l n hl hn.2
      split at hr
      · rename_i e
        rw [hpar] at e
        cases e
      · rename_i q e
        rw [hpar] at e
        cases e
        have hpl : ∀ m ∈ l, m ≠ [] ∧ '/' ∉ m := fun m hm => hp m (by simp [hm])
        obtain ⟨w1, w2, w3, w4, w5⟩ := ih fs hw hl hpl _ rfl
        have hfree : fs.node ⟨abs, l ++ [n]⟩ = none := by
          by_contra hc
          have := hw abs l n hc
          rw [b] at this
          cases this
        generalize hg : makeDirectory id fs (pathOf ⟨abs, l⟩) = g at *
        obtain ⟨ok, fs1⟩ := g
        simp only at w1 w2 w3 w4 w5
        have hfree1 : fs1.node ⟨abs, l ++ [n]⟩ = none := by
          rcases w4 ⟨abs, l ++ [n]⟩ with h | ⟨_, _, _, h⟩
          · rw [h, hfree]
          · have := h.length_le
            simp at this
        cases ok with
        | false =>
          simp only at hr
          subst hr
          refine ⟨w1, w2, ?_, ?_, ?_⟩
          · rw [hfree1]
            simp
          · intro q
            rcases w4 q with h | ⟨h1, h2, h3, h4⟩
            · exact Or.inl h
            · exact Or.inr ⟨h1, h2, h3, h4.trans (List.prefix_append _ _)⟩
          · intro h
            exact w5 fun q hq => h q (hq.trans (List.prefix_append _ _))
        | true =>
          simp only [id] at hr
          have hdir := w3.mp rfl
          rcases mkdir_cases fs1 w1 abs l n _ hne hres with ⟨a, _, _, d⟩ | ⟨_, _, c⟩ | ⟨_, c⟩ | ⟨a, _, c⟩
          · rw [a] at hr
            simp only at hr
            subst hr
            refine ⟨put_WF w1 abs l n hdir, w2, ?_, ?_, fun _ => rfl⟩
            · rw [put_node, if_pos rfl]
              simp
            · intro q
              rw [put_node]
              by_cases e : q = ⟨abs, l ++ [n]⟩
              · right
                subst e
                exact ⟨hfree, if_pos rfl, rfl, List.prefix_rfl⟩
              · rw [if_neg e]
                rcases w4 q with h | ⟨h1, h2, h3, h4⟩
                · exact Or.inl h
                · exact Or.inr ⟨h1, h2, h3, h4.trans (List.prefix_append _ _)⟩
          · exact absurd hfree1 c
          · rw [hdir] at c
            cases c
          · rw [a] at hr
            simp only at hr
            subst hr
            refine ⟨w1, w2, ?_, ?_, ?_⟩
            · rw [hfree1]
              simp
            · intro q
              rcases w4 q with h | ⟨h1, h2, h3, h4⟩
              · exact Or.inl h
              · exact Or.inr ⟨h1, h2, h3, h4.trans (List.prefix_append _ _)⟩
            · intro h
              exfalso
              rcases c with ⟨c', c⟩ | ⟨q, hq, c⟩
              · rw [w2, (h l (List.prefix_append _ _)).2] at c
                cases c
              · rcases w4 ⟨abs, q⟩ with h1 | ⟨_, h1, _⟩
                · rw [c] at h1
                  exact (h q (hq.trans (List.prefix_append _ _))).1 h1.symm
                · rw [c] at h1
                  cases h1
    · rw [a] at hr
      simp only at hr
      subst hr
      refine ⟨hw, rfl, ?_, fun q => Or.inl rfl, ?_⟩
      · simp only
        rw [b]
        simp
      · intro h
        exfalso
        rcases c with ⟨c', c⟩ | ⟨q, hq, c⟩
        · rw [(h l (List.prefix_append _ _)).2] at c
          cases c
        · exact (h q (hq.trans (List.prefix_append _ _))).1 c

/-- **C58 (partial).**  For every usual path and every state of the file system, without other processes: creating the
directory reports success exactly when the path is a directory afterwards; it succeeds if no part of the path is a file
and the user may create directories there; nothing is changed but that missing directories on the path are created.
Missing: paths with a slash at the end and other processes, see the theorems below. -/
theorem C58_partial (fs : FS) (hw : fs.WF) (p : Place) (hp : Proper p) (hne : p.names ≠ []) :
    let r := makeDirectory id fs (pathOf p)
    (r.1 = true ↔ r.2.node p = some .dir) ∧
    ((∀ q, q <+: p.names → fs.node ⟨p.abs, q⟩ ≠ some .file ∧ fs.may ⟨p.abs, q⟩ = true) → r.1 = true) ∧
    (∀ q, r.2.node q = fs.node q ∨
      (fs.node q = none ∧ r.2.node q = some .dir ∧ q.abs = p.abs ∧ q.names <+: p.names)) := by
  intro r
  obtain ⟨abs, l⟩ := p
  obtain ⟨_, _, h3, h4, h5⟩ := makeDirectory_spec abs l fs hw hne hp r rfl
  exact ⟨h3, h5, h4⟩

/-- Where C58 fails: with a slash at the end and a missing parent, the directory is created but a failure is reported. -/
theorem C58_slash_fails (fs : FS) (hw : fs.WF) (abs : Bool) (l : List (List Char)) (n : List Char)
    (hp : ∀ m ∈ l ++ [n], m ≠ [] ∧ '/' ∉ m) (hmiss : fs.node ⟨abs, l⟩ = none)
    (hok : ∀ q, q <+: l ++ [n] → fs.node ⟨abs, q⟩ ≠ some .file ∧ fs.may ⟨abs, q⟩ = true) :
    (makeDirectory id fs (pathOf ⟨abs, l ++ [n]⟩ ++ ['/'])).1 = false ∧
    (makeDirectory id fs (pathOf ⟨abs, l ++ [n]⟩ ++ ['/'])).2.node ⟨abs, l ++ [n]⟩ = some .dir := by
  have hne := pathOf_ne abs (l ++ [n]) (by simp) hp
  have hres : resolve (pathOf ⟨abs, l ++ [n]⟩ ++ ['/']) = ⟨abs, l ++ [n]⟩ := by
    have h0 := resolve_pathOf ⟨abs, l ++ [n]⟩ hp
    have hs : ∀ s : List Char, splitRest '/' (s ++ ['/']) = splitRest '/' s := by
      intro s
      induction hk : s.length using Nat.strong_induction_on generalizing s with
      | _ k ih =>
        cases s with
        | nil => rw [List.nil_append, splitRest_delim]
        | cons c t =>
          by_cases hc : c = '/'
          · subst hc
            rw [List.cons_append, splitRest_delim, splitRest_delim]
            exact ih t.length (by simp at hk; omega) t rfl
          · rw [List.cons_append, splitRest_cons _ c t hc, splitRest_cons _ c (t ++ ['/']) hc]
            have e : (c :: t).takeWhile (· != '/') ++ (c :: t).dropWhile (· != '/') = c :: t := List.takeWhile_append_dropWhile
            rw [← List.cons_append]
            by_cases hm : '/' ∈ c :: t
            · have hd : (c :: t).dropWhile (· != '/') ≠ [] := by
                rw [Ne, List.dropWhile_eq_nil_iff]
                intro h
                have := h _ hm
                simp at this
              have a1 : (c :: t ++ ['/']).takeWhile (· != '/') = (c :: t).takeWhile (· != '/') := by
                rw [List.takeWhile_append, if_neg]
                intro h
                apply hd
                have := congrArg List.length e
                rw [List.length_append, h] at this
                exact List.eq_nil_of_length_eq_zero (by omega)
              have a2 : (c :: t ++ ['/']).dropWhile (· != '/') = (c :: t).dropWhile (· != '/') ++ ['/'] := by
                rw [List.dropWhile_append, if_neg]
                simpa using hd
              rw [a1, a2]
              congr 1
              refine ih _ ?_ _ rfl
              rw [List.dropWhile_cons_of_pos (by simpa using hc)]
              have : (t.dropWhile (· != '/')).length ≤ t.length := (List.dropWhile_suffix _).length_le
              simp at hk
              omega
            · have hall : ∀ x ∈ c :: t, (x != '/') = true := by
                intro x hx
                have : x ≠ '/' := fun e => hm (e ▸ hx)
                simpa using this
              rw [List.takeWhile_append_of_pos hall, List.dropWhile_append_of_pos hall]
              have b1 : (c :: t).takeWhile (· != '/') = c :: t := List.takeWhile_eq_self_iff.mpr hall
              have b2 : (c :: t).dropWhile (· != '/') = [] := List.dropWhile_eq_nil_iff.mpr hall
              rw [b1, b2, List.takeWhile_cons_of_neg (by simp), List.dropWhile_cons_of_neg (by simp), splitRest_delim]
              simp
    unfold resolve at h0 ⊢
    rw [hs, List.head?_append_of_ne_nil _ hne]
    exact h0
  have hfree : fs.node ⟨abs, l ++ [n]⟩ = none := by
    by_contra hc
    have := hw abs l n hc
    rw [hmiss] at this
    cases this
  have hpar : parentPath (pathOf ⟨abs, l ++ [n]⟩ ++ ['/']) = some (pathOf ⟨abs, l ++ [n]⟩) :=
    parentPath_append _ [] (by simp)
  obtain ⟨w1, w2, w3, w4, w5⟩ := makeDirectory_spec abs (l ++ [n]) fs hw (by simp) hp _ rfl
  have hT := w5 hok
  have hdir := w3.mp hT
  have hne' : pathOf ⟨abs, l ++ [n]⟩ ++ ['/'] ≠ [] := by simp
  have hfinal : makeDirectory id fs (pathOf ⟨abs, l ++ [n]⟩ ++ ['/']) =
      (false, (makeDirectory id fs (pathOf ⟨abs, l ++ [n]⟩)).2) := by
    rw [makeDirectory]
    rcases mkdir_cases fs hw abs l n _ hne' hres with ⟨_, b, _⟩ | ⟨_, b, _⟩ | ⟨a, _⟩ | ⟨_, _, c⟩
    · rw [hmiss] at b; cases b
    · rw [hmiss] at b; cases b
    · rw [a]
      simp only
      split
      · rename_i e
        rw [hpar] at e
        cases e
      · rename_i q e
        rw [hpar] at e
        cases e
        generalize hg : makeDirectory id fs (pathOf ⟨abs, l ++ [n]⟩) = g at *
        obtain ⟨ok, fs1⟩ := g
        simp only at hT w1 hdir
        subst hT
        simp only [id]
        rcases mkdir_cases fs1 w1 abs l n _ hne' hres with ⟨_, _, c, _⟩ | ⟨a, _, _⟩ | ⟨_, b⟩ | ⟨_, b, _⟩
        · rw [hdir] at c; cases c
        · rw [a]
        · have := w1 abs l n (by rw [hdir]; simp)
          rw [b] at this
          cases this
        · rw [hdir] at b; cases b
    · exfalso
      rcases c with ⟨c', c⟩ | ⟨q, hq, c⟩
      · rw [(hok l (List.prefix_append _ _)).2] at c
        cases c
      · exact (hok q (hq.trans (List.prefix_append _ _))).1 c
  rw [hfinal]
  exact ⟨rfl, hdir⟩

/-- Where C58 fails: if another process (another MPI rank with the same output directory) creates the directory between the
two attempts, a failure is reported although the directory exists. -/
theorem C58_race_fails (fs : FS) (hw : fs.WF) (abs : Bool) (m n : List Char) (hm : m ≠ [] ∧ '/' ∉ m) (hn : n ≠ [] ∧ '/' ∉ n)
    (hmiss : fs.node ⟨abs, [m]⟩ = none) (hmay : fs.may ⟨abs, []⟩ = true) :
    let r := makeDirectory (fun fs => fs.put ⟨abs, [m, n]⟩) fs (pathOf ⟨abs, [m, n]⟩)
    r.1 = false ∧ r.2.node ⟨abs, [m, n]⟩ = some .dir := by
  intro r
  have hp2 : ∀ x ∈ [m] ++ [n], x ≠ [] ∧ '/' ∉ x := by
    intro x hx
    simp at hx
    rcases hx with rfl | rfl
    · exact hm
    · exact hn
  have hp1 : ∀ x ∈ [] ++ [m], x ≠ [] ∧ '/' ∉ x := by
    intro x hx
    simp at hx
    subst hx
    exact hm
  have hne2 := pathOf_ne abs ([m] ++ [n]) (by simp) hp2
  have hne1 := pathOf_ne abs ([] ++ [m]) (by simp) hp1
  have hr2 := resolve_pathOf ⟨abs, [m] ++ [n]⟩ hp2
  have hr1 := resolve_pathOf ⟨abs, [] ++ [m]⟩ hp1
  have h0 : fs.node ⟨abs, []⟩ = some .dir := by simp [FS.node]
  have hw1 := put_WF hw abs [] m h0
  have hd1 : (fs.put ⟨abs, [] ++ [m]⟩).node ⟨abs, [m]⟩ = some .dir := by
    rw [put_node]
    exact if_pos rfl
  have hw2 := put_WF hw1 abs [m] n hd1
  have e1 : makeDirectory (fun fs => fs.put ⟨abs, [m, n]⟩) fs (pathOf ⟨abs, [] ++ [m]⟩) = (true, fs.put ⟨abs, [] ++ [m]⟩) := by
    rw [makeDirectory]
    rcases mkdir_cases fs hw abs [] m _ hne1 hr1 with ⟨a, _⟩ | ⟨_, _, c⟩ | ⟨_, b⟩ | ⟨_, _, c⟩
    · rw [a]
    · exact absurd hmiss c
    · rw [h0] at b; cases b
    · rcases c with ⟨c', c⟩ | ⟨q, hq, c⟩
      · rw [hmay] at c; cases c
      · have : q = [] := List.prefix_nil.mp hq
        subst this
        rw [h0] at c
        cases c
  have hfinal : r = (false, (fs.put ⟨abs, [] ++ [m]⟩).put ⟨abs, [m] ++ [n]⟩) := by
    show makeDirectory (fun fs => fs.put ⟨abs, [m, n]⟩) fs (pathOf ⟨abs, [m] ++ [n]⟩) = _
    rw [makeDirectory]
    rcases mkdir_cases fs hw abs [m] n _ hne2 hr2 with ⟨_, b, _⟩ | ⟨_, b, _⟩ | ⟨a, _⟩ | ⟨_, _, c⟩
    · rw [hmiss] at b; cases b
    · rw [hmiss] at b; cases b
    · rw [a]
      simp only
      have hpar := parentPath_pathOf abs [m] n (by simp) hn.2
      split
      · rename_i e
        rw [hpar] at e
        cases e
      · rename_i q e
        rw [hpar] at e
        cases e
        have e1' : makeDirectory (fun fs => fs.put ⟨abs, [m, n]⟩) fs (pathOf ⟨abs, [m]⟩) = (true, fs.put ⟨abs, [] ++ [m]⟩) := e1
        rw [e1']
        simp only
        have hdd : ((fs.put ⟨abs, [] ++ [m]⟩).put ⟨abs, [m] ++ [n]⟩).node ⟨abs, [m] ++ [n]⟩ = some .dir := by
          rw [put_node, if_pos rfl]
        rcases mkdir_cases _ hw2 abs [m] n _ hne2 hr2 with ⟨_, _, c, _⟩ | ⟨a, _, _⟩ | ⟨_, b⟩ | ⟨_, b, _⟩
        · rw [hdd] at c; cases c
        · have a' : mkdir ((fs.put ⟨abs, [] ++ [m]⟩).put ⟨abs, [m, n]⟩) (pathOf ⟨abs, [m] ++ [n]⟩) = _ := a
          rw [a']
        · have := hw2 abs [m] n (by rw [hdd]; simp)
          rw [b] at this
          cases this
        · rw [hdd] at b; cases b
    · exfalso
      rcases c with ⟨c', c⟩ | ⟨q, hq, c⟩
      · rw [hmiss] at c'
        cases c'
      · have hq' : q = [] ∨ q = [m] := by
          cases q with
          | nil => exact Or.inl rfl
          | cons x q =>
            have := List.cons_prefix_cons.mp hq
            rw [this.1, List.prefix_nil.mp this.2]
            exact Or.inr rfl
        rcases hq' with rfl | rfl
        · rw [h0] at c; cases c
        · rw [hmiss] at c; cases c
  rw [hfinal]
  refine ⟨rfl, ?_⟩
  rw [put_node]
  exact if_pos rfl

/-- An empty file system: the parent of `out/data` is missing. -/
example : ∃ fs : FS, fs.WF ∧ fs.node ⟨false, ["out".toList]⟩ = none ∧
    (∀ q, q <+: ["out".toList] ++ ["data".toList] → fs.node ⟨false, q⟩ ≠ some .file ∧ fs.may ⟨false, q⟩ = true) := by
  refine ⟨⟨fun _ => none, fun _ => true⟩, ?_, rfl, ?_⟩
  · intro abs l n h
    simp [FS.node] at h
  · intro q _
    refine ⟨?_, rfl⟩
    by_cases h : q = [] <;> simp [FS.node, h]

example : pathOf ⟨false, ["out".toList] ++ ["data".toList]⟩ = "out/data".toList := by decide

end Help
end Pico
