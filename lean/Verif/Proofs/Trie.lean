import Verif.Spec.Topics
namespace MsgRs.Trie
open MsgRs

@[simp] theorem children_mk (c a e) : (Node.mk c a e).children = c := rfl
@[simp] theorem catchAll_mk (c a e) : (Node.mk c a e).catchAll = a := rfl
@[simp] theorem topicEnd_mk (c a e) : (Node.mk c a e).topicEnd = e := rfl

theorem getChild_set (k k2 : Str) (v : Node) (l : List (Str × Node)) :
    getChild k2 (setChild k v l) = if k = k2 then some v else getChild k2 l := by
  induction l with
  | nil => simp [setChild, getChild]
  | cons e l ih =>
    obtain ⟨k', v'⟩ := e
    by_cases h : k' = k
    · simp only [setChild, h, if_true, getChild]
      split <;> simp_all
    · simp only [setChild, h, if_false, getChild, ih]
      split
      · split <;> simp_all
      · rfl

theorem getChild_erase (k k2 : Str) (l : List (Str × Node)) :
    getChild k2 (eraseChild k l) = if k = k2 then none else getChild k2 l := by
  induction l with
  | nil => simp [eraseChild, getChild]
  | cons e l ih =>
    obtain ⟨k', v'⟩ := e
    unfold eraseChild at ih ⊢
    by_cases h : k' = k
    · subst h
      simp only [ne_eq, not_true_eq_false, decide_false, Bool.false_eq_true, not_false_eq_true,
        List.filter_cons_of_neg, ih, getChild]
      split <;> simp_all
    · rw [List.filter_cons_of_pos (by simp [h])]
      simp only [getChild, ih]
      split
      · split <;> simp_all
      · rfl

theorem setChild_ne_nil (k : Str) (v : Node) (l) : setChild k v l ≠ [] := by
  cases l with
  | nil => simp [setChild]
  | cons e l => simp only [setChild]; split <;> simp

theorem getChild_none_all {l : List (Str × Node)} (h : ∀ k, getChild k l = none) : l = [] := by
  cases l with
  | nil => rfl
  | cons e l => have := h e.1; simp [getChild] at this

/-- Is exactly this token path marked as the end of a subscription? -/
def has (n : Node) : List Str → Bool
  | [] => n.topicEnd
  | t :: ts =>
    match getChild t n.children with
    | some c => has c ts
    | none => false

theorem has_new (p : List Str) : has Node.new p = false := by
  cases p <;> rfl

/-- The tokens up to and including the first `>`. -/
def norm : List Str → List Str
  | [] => []
  | t :: ts => if t = GT then [t] else t :: norm ts

theorem has_getD (n : Node) (t : Str) (q : List Str) :
    has ((getChild t n.children).getD Node.new) q = has n (t :: q) := by
  cases h : getChild t n.children with
  | none => simp [has, h, has_new]
  | some c => simp [has, h]

theorem has_insertAt (n : Node) (p q : List Str) :
    has (insertAt n p) q = (decide (q = norm p) || has n q) := by
  induction p generalizing n q with
  | nil =>
    cases q with
    | nil => simp [insertAt, has, norm, topicEnd_mk]
    | cons t q => simp [insertAt, has, norm, children_mk]
  | cons t p ih =>
    cases q with
    | nil => simp only [insertAt, has, topicEnd_mk, norm]; by_cases hg : t = GT <;> simp [hg]
    | cons u q =>
      simp only [insertAt, has, children_mk, getChild_set]
      by_cases hu : t = u
      · subst hu
        simp only [if_true]
        by_cases hg : t = GT
        · simp only [hg, if_true, norm]
          have h1 := has_getD n GT q
          cases q with
          | nil => simp [has, topicEnd_mk]
          | cons v q =>
            simp only [has, children_mk] at h1 ⊢
            simpa using h1
        · simp only [hg, if_false, norm]
          rw [ih, has_getD]
          simp [has]
      · simp only [hu, if_false]
        have : ¬ (u :: q = norm (t :: p)) := by
          simp only [norm]
          split
          · intro h; simp at h; exact hu h.1.symm
          · intro h; simp at h; exact hu h.1.symm
        simp [this]

theorem removeAt_drop {n : Node} {p : List Str} {n'} (h : removeAt n p = (n', true)) :
    n'.children = [] ∧ n'.topicEnd = false := by
  cases p with
  | nil =>
    simp only [removeAt] at h
    split at h
    · simp at h
      obtain ⟨rfl, h2⟩ := h
      exact ⟨by simpa [children_mk] using h2, rfl⟩
    · simp at h
  | cons t p =>
    simp only [removeAt] at h
    split at h
    · split at h
      · simp at h
        obtain ⟨rfl, h2, h3⟩ := h
        exact ⟨by simpa [children_mk] using h2, by simpa [topicEnd_mk] using h3⟩
      · simp at h
    · simp at h

theorem has_removeAt (n : Node) (p q : List Str) :
    has (removeAt n p).1 q = (decide (q ≠ p) && has n q) := by
  induction p generalizing n q with
  | nil =>
    simp only [removeAt]
    cases ht : n.topicEnd with
    | true =>
      cases q with
      | nil => simp [has, topicEnd_mk]
      | cons t q => simp [has, children_mk]
    | false =>
      cases q with
      | nil => simp [has, ht]
      | cons t q => simp
  | cons t p ih =>
    simp only [removeAt]
    cases hc : getChild t n.children with
    | none =>
      by_cases hq : q = t :: p
      · subst hq; simp [has, hc]
      · simp [hq]
    | some c =>
      simp only
      cases hr : removeAt c p with
      | mk c' d =>
        have ih' := ih c
        rw [hr] at ih'
        simp only at ih'
        cases d with
        | true =>
          simp only [if_true]
          obtain ⟨h1, h2⟩ := removeAt_drop hr
          cases q with
          | nil => simp [has, topicEnd_mk]
          | cons u q =>
            simp only [has, children_mk, getChild_erase]
            by_cases hu : t = u
            · subst hu
              simp only [if_true]
              have h3 := ih' q
              have h4 : has c' q = false := by
                cases q with
                | nil => simpa [has] using h2
                | cons => simp [has, h1, getChild]
              rw [h4] at h3
              rw [hc]
              simpa using h3
            · simp only [hu, if_false]
              have : u :: q ≠ t :: p := by
                intro h; simp at h; exact hu h.1.symm
              simp [this]
        | false =>
          simp only [Bool.false_eq_true, if_false]
          cases q with
          | nil => simp [has, topicEnd_mk]
          | cons u q =>
            simp only [has, children_mk, getChild_set]
            by_cases hu : t = u
            · subst hu
              simp only [if_true]
              rw [hc, ih']
              simp
            · simp only [hu, if_false]
              have : u :: q ≠ t :: p := by
                intro h; simp at h; exact hu h.1.symm
              simp [this]

/-- A node below the root: `catch_all` exactly at `>`, no children there, and never useless. -/
inductive OK : Bool → Node → Prop where
  | mk {g ch e} : (g = true → ch = []) → (e = true ∨ ch ≠ []) →
      (∀ t c, getChild t ch = some c → OK (decide (t = GT)) c) → OK g (.mk ch g e)

/-- A node that may be useless (the root, or a fresh node). -/
structure PreOK (g : Bool) (n : Node) : Prop where
  catchAll : n.catchAll = g
  leaf : g = true → n.children = []
  kids : ∀ t c, getChild t n.children = some c → OK (decide (t = GT)) c

theorem OK.pre {g n} (h : OK g n) : PreOK g n := by
  cases h with
  | mk h1 h2 h3 => exact ⟨rfl, h1, h3⟩

theorem OK.useful {g n} (h : OK g n) : n.topicEnd = true ∨ n.children ≠ [] := by
  cases h with
  | mk h1 h2 h3 => exact h2

theorem PreOK.ok {g n} (h : PreOK g n) (hu : n.topicEnd = true ∨ n.children ≠ []) : OK g n := by
  obtain ⟨ch, a, e⟩ := n
  obtain ⟨h1, h2, h3⟩ := h
  simp only [catchAll_mk] at h1
  subst h1
  exact .mk h2 hu h3

theorem preOK_new : PreOK false Node.new := ⟨rfl, by simp, by simp [Node.new, children_mk, getChild]⟩

theorem PreOK.getD {g n} (h : PreOK g n) (t : Str) (ht : t ≠ GT) :
    PreOK false ((getChild t n.children).getD Node.new) := by
  cases hc : getChild t n.children with
  | none => exact preOK_new
  | some c =>
    have := h.kids t c hc
    rw [decide_eq_false ht] at this
    exact this.pre

theorem insertAt_ok {n : Node} {p : List Str} (h : PreOK false n) : OK false (insertAt n p) := by
  induction p generalizing n with
  | nil =>
    refine PreOK.ok ⟨h.catchAll, by simp, h.kids⟩ (Or.inl rfl)
  | cons t p ih =>
    refine PreOK.ok ⟨h.catchAll, by simp, ?_⟩ (Or.inr (setChild_ne_nil _ _ _))
    intro u c hc
    simp only [insertAt, children_mk, getChild_set] at hc
    by_cases hu : t = u
    · subst hu
      simp only [if_true, Option.some.injEq] at hc
      by_cases hg : t = GT
      · rw [if_pos hg] at hc
        subst hc
        rw [decide_eq_true hg]
        have hch : ((getChild t n.children).getD Node.new).children = [] := by
          cases hc : getChild t n.children with
          | none => rfl
          | some c =>
            have := h.kids t c hc
            rw [decide_eq_true hg] at this
            exact this.pre.leaf rfl
        refine PreOK.ok ⟨rfl, fun _ => hch, ?_⟩ (Or.inl rfl)
        intro t' c' hc'
        have hch' : getChild t' ((getChild t n.children).getD Node.new).children = some c' := hc'
        rw [hch] at hch'
        simp [getChild] at hch'
      · rw [if_neg hg] at hc
        subst hc
        rw [decide_eq_false hg]
        exact ih (h.getD t hg)
    · simp only [hu, if_false] at hc
      exact h.kids u c hc

theorem removeAt_ok {g : Bool} {n : Node} (p : List Str) (h : PreOK g n) :
    PreOK g (removeAt n p).1 ∧
      ((removeAt n p).2 = false → (n.topicEnd = true ∨ n.children ≠ []) → OK g (removeAt n p).1) := by
  induction p generalizing n g with
  | nil =>
    simp only [removeAt]
    split
    · refine ⟨⟨h.catchAll, h.leaf, h.kids⟩, ?_⟩
      intro hb _
      refine PreOK.ok ⟨h.catchAll, h.leaf, h.kids⟩ (Or.inr ?_)
      intro he
      have he' : n.children = [] := he
      simp [he'] at hb
    · exact ⟨h, fun _ hu => h.ok hu⟩
  | cons t p ih =>
    simp only [removeAt]
    cases hc : getChild t n.children with
    | none => exact ⟨h, fun _ hu => h.ok hu⟩
    | some c =>
      have hck := h.kids t c hc
      have hih := ih (n := c) (g := decide (t = GT)) hck.pre
      have hg : g = true → False := by
        intro hg
        have := h.leaf hg
        rw [this] at hc
        simp [getChild] at hc
      simp only
      cases hr : removeAt c p with
      | mk c' d =>
        rw [hr] at hih
        cases d with
        | true =>
          simp only [if_true]
          have hpre : PreOK g (.mk (eraseChild t n.children) n.catchAll n.topicEnd) := by
            refine ⟨h.catchAll, fun hh => (hg hh).elim, ?_⟩
            intro u c2 hc2
            simp only [children_mk, getChild_erase] at hc2
            split at hc2
            · simp at hc2
            · exact h.kids u c2 hc2
          refine ⟨hpre, ?_⟩
          intro hb _
          refine hpre.ok ?_
          simp only [topicEnd_mk, children_mk]
          by_cases he : eraseChild t n.children = []
          · left
            cases hte : n.topicEnd with
            | true => rfl
            | false => rw [he, hte] at hb; simp at hb
          · exact Or.inr he
        | false =>
          simp only [Bool.false_eq_true, if_false]
          have hpre : PreOK g (.mk (setChild t c' n.children) n.catchAll n.topicEnd) := by
            refine ⟨h.catchAll, fun hh => (hg hh).elim, ?_⟩
            intro u c2 hc2
            simp only [children_mk, getChild_set] at hc2
            split at hc2
            · rename_i htu
              subst htu
              cases hc2
              exact hih.2 rfl hck.useful
            · exact h.kids u c2 hc2
          exact ⟨hpre, fun _ _ => hpre.ok (Or.inr (setChild_ne_nil _ _ _))⟩

/-- A useful node has a subscription below it. -/
theorem OK.exists_has {g n} (h : OK g n) : ∃ p, has n p = true := by
  induction h with
  | @mk g ch e h1 h2 h3 ih =>
    rcases h2 with h2 | h2
    · exact ⟨[], h2⟩
    · cases ch with
      | nil => exact absurd rfl h2
      | cons x ch =>
        obtain ⟨k, v⟩ := x
        have hk : getChild k ((k, v) :: ch) = some v := by simp [getChild]
        obtain ⟨p, hp⟩ := ih k v hk
        exact ⟨k :: p, by simp [has, children_mk, hk, hp]⟩

theorem child_of_has {n : Node} {t : Str} {p : List Str} (h : has n (t :: p) = true) :
    ∃ c, getChild t n.children = some c ∧ has c p = true := by
  simp only [has] at h
  split at h
  · exact ⟨_, by assumption, h⟩
  · simp at h

theorem has_child {n c : Node} {t : Str} (hc : getChild t n.children = some c) (p : List Str) :
    has n (t :: p) = has c p := by
  simp [has, hc]

/-- What a filter matches depends only on the set of subscribed token paths. -/
theorem containsAt_congr {g : Bool} {n n' : Node} (h : PreOK g n) (h' : PreOK g n')
    (heq : ∀ p, has n p = has n' p) (ts : List Str) : containsAt n ts = containsAt n' ts := by
  induction ts generalizing n n' g with
  | nil =>
    have := heq []
    simp only [has] at this
    simp [containsAt, this, h.catchAll, h'.catchAll]
  | cons t ts ih =>
    have child : ∀ u, (getChild u n.children = none ∧ getChild u n'.children = none) ∨
        (∃ c c', getChild u n.children = some c ∧ getChild u n'.children = some c' ∧
          containsAt c ts = containsAt c' ts) := by
      intro u
      cases hc : getChild u n.children with
      | none =>
        left
        refine ⟨rfl, ?_⟩
        cases hc' : getChild u n'.children with
        | none => rfl
        | some c' =>
          obtain ⟨p, hp⟩ := (h'.kids u c' hc').exists_has
          rw [← has_child hc', ← heq] at hp
          obtain ⟨c, h1, -⟩ := child_of_has hp
          rw [hc] at h1; cases h1
      | some c =>
        right
        obtain ⟨p, hp⟩ := (h.kids u c hc).exists_has
        rw [← has_child hc, heq] at hp
        obtain ⟨c', h1, -⟩ := child_of_has hp
        refine ⟨c, c', rfl, h1, ?_⟩
        refine ih (h.kids u c hc).pre (h'.kids u c' h1).pre ?_
        intro q
        rw [← has_child hc, heq, has_child h1]
    simp only [containsAt]
    rcases child t with ⟨h1, h2⟩ | ⟨c, c', h1, h2, h3⟩
    · rw [h1, h2]
      rcases child STAR with ⟨h1, h2⟩ | ⟨c, c', h1, h2, h3⟩
      · simp [h1, h2, h.catchAll, h'.catchAll]
      · simp [h1, h2, h3]
    · simp [h1, h2, h3]

theorem sound {g : Bool} {n : Node} (h : PreOK g n) (ts : List Str)
    (hc : containsAt n ts = true) :
    g = true ∨ ∃ p, has n p = true ∧ Spec.TokMatches p ts := by
  induction ts generalizing n g with
  | nil =>
    simp only [containsAt, Bool.or_eq_true] at hc
    rcases hc with hc | hc
    · right; exact ⟨[], hc, .nil⟩
    · left; rw [← h.catchAll, hc]
  | cons t ts ih =>
    simp only [containsAt] at hc
    split at hc
    · rename_i c hch
      have hk := h.kids t c hch
      rcases ih hk.pre hc with hg | ⟨p, hp, hm⟩
      · right
        have htg : t = GT := by simpa using hg
        subst htg
        have hte : c.topicEnd = true := by
          rcases hk.useful with h1 | h1
          · exact h1
          · exact absurd (hk.pre.leaf hg) h1
        exact ⟨[GT], by simp [has, hch, hte], .gt⟩
      · right
        exact ⟨t :: p, by rw [has_child hch]; exact hp, .lit hm⟩
    · split at hc
      · rename_i c hch
        have hk := h.kids STAR c hch
        rcases ih hk.pre hc with hg | ⟨p, hp, hm⟩
        · simp [STAR, GT] at hg
        · right
          exact ⟨STAR :: p, by rw [has_child hch]; exact hp, .star hm⟩
      · left; rw [← h.catchAll, hc]

/-- For topics without a `>` token only `>`-free patterns are ever responsible for a match. -/
theorem sound_nogt {n : Node} (h : PreOK false n) (ts : List Str) (hts : GT ∉ ts)
    (hc : containsAt n ts = true) :
    ∃ p, has n p = true ∧ Spec.TokMatches p ts ∧ GT ∉ p := by
  induction ts generalizing n with
  | nil =>
    simp only [containsAt, Bool.or_eq_true] at hc
    rcases hc with hc | hc
    · exact ⟨[], hc, .nil, by simp⟩
    · rw [h.catchAll] at hc; cases hc
  | cons t ts ih =>
    have ht : t ≠ GT := fun h => hts (by simp [h])
    have hts' : GT ∉ ts := fun h => hts (List.mem_cons_of_mem _ h)
    simp only [containsAt] at hc
    split at hc
    · rename_i c hch
      have hk := h.kids t c hch
      rw [decide_eq_false ht] at hk
      obtain ⟨p, hp, hm, hg⟩ := ih hk.pre hts' hc
      refine ⟨t :: p, by rw [has_child hch]; exact hp, .lit hm, ?_⟩
      intro hh
      rcases List.mem_cons.mp hh with hh | hh
      · exact ht hh.symm
      · exact hg hh
    · split at hc
      · rename_i c hch
        have hk := h.kids STAR c hch
        rw [decide_eq_false (by simp [STAR, GT])] at hk
        obtain ⟨p, hp, hm, hg⟩ := ih hk.pre hts' hc
        refine ⟨STAR :: p, by rw [has_child hch]; exact hp, .star hm, ?_⟩
        intro hh
        rcases List.mem_cons.mp hh with hh | hh
        · simp [STAR, GT] at hh
        · exact hg hh
      · rw [h.catchAll] at hc; cases hc

/-- A subscribed token list is found when it is used as a topic. -/
theorem complete_literal {n : Node} (ts : List Str) (h : has n ts = true) :
    containsAt n ts = true := by
  induction ts generalizing n with
  | nil => simp only [has] at h; simp [containsAt, h]
  | cons t ts ih =>
    obtain ⟨c, h1, h2⟩ := child_of_has h
    simp [containsAt, h1, ih h2]

theorem complete_unshadowed {g : Bool} {n : Node} (hok : PreOK g n) (p ts : List Str)
    (h : has n p = true) (hm : Spec.TokMatches p ts) (hgt : GT ∉ p)
    (hns : ∀ q, has n q = true → ∀ i t, q.take i = p.take i → ts[i]? = some t →
      q[i]? = some t → p[i]? = some t) :
    containsAt n ts = true := by
  induction ts generalizing n p g with
  | nil =>
    cases hm with
    | nil => exact complete_literal [] h
  | cons t ts ih =>
    have step : ∀ a p', p = a :: p' → (a = t ∨ a = STAR) → Spec.TokMatches p' ts →
        containsAt n (t :: ts) = true := by
      intro a p' hp ha hm'
      subst hp
      obtain ⟨ca, hca, hha⟩ := child_of_has h
      have down : containsAt ca ts = true := by
        refine ih (hok.kids a ca hca).pre p' hha hm' (fun hh => hgt (List.mem_cons_of_mem _ hh)) ?_
        intro q hq i u hi hti hqi
        have := hns (a :: q) (by rw [has_child hca]; exact hq) (i + 1) u (by simp [hi])
          (by simpa using hti) (by simpa using hqi)
        simpa using this
      simp only [containsAt]
      cases hct : getChild t n.children with
      | some c =>
        simp only
        obtain ⟨q, hq⟩ := (hok.kids t c hct).exists_has
        have := hns (t :: q) (by rw [has_child hct]; exact hq) 0 t (by simp) (by simp) (by simp)
        simp only [List.getElem?_cons_zero, Option.some.injEq] at this
        subst this
        rw [hca] at hct
        cases hct
        exact down
      | none =>
        simp only
        rcases ha with rfl | rfl
        · rw [hca] at hct; cases hct
        · simp [hca, down]
    cases hm with
    | lit hm' => exact step _ _ rfl (Or.inl rfl) hm'
    | star hm' => exact step _ _ rfl (Or.inr rfl) hm'
    | gt => exact absurd (by simp [GT]) hgt

/-! ### Strings and tokens -/

theorem splitDots_ne_nil (s : Str) : splitDots s ≠ [] := by
  cases s with
  | nil => simp [splitDots]
  | cons c cs =>
    simp only [splitDots]
    split
    · simp
    · split <;> simp

/-- Inverse of `splitDots`. -/
def joinDots : List Str → Str
  | [] => []
  | [t] => t
  | t :: u :: ts => t ++ '.' :: joinDots (u :: ts)

theorem join_split (s : Str) : joinDots (splitDots s) = s := by
  induction s with
  | nil => rfl
  | cons c cs ih =>
    simp only [splitDots]
    split
    · rename_i hc
      have hne := splitDots_ne_nil cs
      cases hs : splitDots cs with
      | nil => exact absurd hs hne
      | cons t ts => rw [hs] at ih; simp [joinDots, ih, hc]
    · cases hs : splitDots cs with
      | nil => exact absurd hs (splitDots_ne_nil cs)
      | cons t ts =>
        rw [hs] at ih
        simp only
        cases ts with
        | nil => simp [joinDots] at ih ⊢; exact ih
        | cons u us => simp [joinDots] at ih ⊢; exact ih

theorem splitDots_inj {s s' : Str} (h : splitDots s = splitDots s') : s = s' := by
  rw [← join_split s, ← join_split s', h]

/-! ### Histories -/

theorem filterAfter_snoc (ops : List Spec.Op) (op : Spec.Op) :
    Spec.filterAfter (ops ++ [op]) = match op with
      | .sub p => insert (Spec.filterAfter ops) p
      | .unsub p => remove (Spec.filterAfter ops) p := by
  cases op <;> simp only [Spec.filterAfter, List.foldl_append, List.foldl_cons, List.foldl_nil]

theorem active_snoc (ops : List Spec.Op) (op : Spec.Op) (p : Str) :
    Spec.active (ops ++ [op]) p = match op with
      | .sub q => if q = p then true else Spec.active ops p
      | .unsub q => if q = p then false else Spec.active ops p := by
  cases op <;> simp only [Spec.active, List.foldl_append, List.foldl_cons, List.foldl_nil]

theorem snoc_induction {α} {P : List α → Prop} (nil : P []) (snoc : ∀ l a, P l → P (l ++ [a])) :
    ∀ l, P l := by
  intro l
  rw [← List.reverse_reverse l]
  induction l.reverse with
  | nil => exact nil
  | cons a l ih => rw [List.reverse_cons]; exact snoc _ _ ih

theorem filterAfter_ok (ops : List Spec.Op) : PreOK false (Spec.filterAfter ops) := by
  refine snoc_induction (P := fun ops => PreOK false (Spec.filterAfter ops)) preOK_new ?_ ops
  intro l op ih
  rw [filterAfter_snoc]
  cases op with
  | sub p => exact (insertAt_ok ih).pre
  | unsub p => exact (removeAt_ok _ ih).1

/-- The root itself is never a subscription. -/
theorem filterAfter_root (ops : List Spec.Op) : has (Spec.filterAfter ops) [] = false := by
  refine snoc_induction (P := fun ops => has (Spec.filterAfter ops) [] = false) rfl ?_ ops
  intro l op ih
  rw [filterAfter_snoc]
  cases op with
  | sub p =>
    simp only [insert, has_insertAt, ih, Bool.or_false, decide_eq_false_iff_not]
    have := splitDots_ne_nil p
    cases hs : splitDots p with
    | nil => exact absurd hs this
    | cons t ts => simp only [norm]; split <;> simp
  | unsub p => simp only [remove, has_removeAt, ih, Bool.and_false]

/-- Set of token paths after a history: `insert` adds the normalised path, `remove` erases the
path as given. -/
def paths (ops : List Spec.Op) (q : List Str) : Bool :=
  ops.foldl (fun b op =>
    match op with
    | .sub p => decide (q = norm (splitDots p)) || b
    | .unsub p => decide (q ≠ splitDots p) && b) false

theorem has_filterAfter (ops : List Spec.Op) (q : List Str) :
    has (Spec.filterAfter ops) q = paths ops q := by
  refine snoc_induction (P := fun ops => has (Spec.filterAfter ops) q = paths ops q)
    (has_new q) ?_ ops
  intro l op ih
  rw [filterAfter_snoc]
  cases op with
  | sub p =>
    simp only [insert, has_insertAt, ih]
    simp [paths, List.foldl_append]
  | unsub p =>
    simp only [remove, has_removeAt, ih]
    simp [paths, List.foldl_append]

theorem norm_wf {p : List Str} (h : GT ∉ p.dropLast) : norm p = p := by
  induction p with
  | nil => rfl
  | cons t ts ih =>
    simp only [norm]
    split
    · cases ts with
      | nil => rfl
      | cons u us =>
        rename_i ht
        exact absurd (by simp [List.dropLast, ht]) h
    · cases ts with
      | nil => rfl
      | cons u us =>
        rw [ih]
        intro hh
        exact h (by simp only [List.dropLast]; exact List.mem_cons_of_mem _ hh)

/-- For well-formed patterns the filter holds exactly the active subscriptions. -/
theorem has_wf (ops : List Spec.Op) (hwf : ∀ op ∈ ops, Spec.WellFormed op.pattern) (s : Str) :
    has (Spec.filterAfter ops) (splitDots s) = Spec.active ops s := by
  rw [has_filterAfter]
  revert hwf
  refine snoc_induction (P := fun ops => (∀ op ∈ ops, Spec.WellFormed op.pattern) →
    paths ops (splitDots s) = Spec.active ops s) (fun _ => rfl) ?_ ops
  intro l op ih hwf
  have ih' := ih (fun o ho => hwf o (List.mem_append_left _ ho))
  have hop := hwf op (by simp)
  rw [active_snoc]
  simp only [paths, List.foldl_append, List.foldl_cons, List.foldl_nil]
  have ih'' : List.foldl (fun b op =>
    match op with
    | .sub p => decide (splitDots s = norm (splitDots p)) || b
    | .unsub p => decide (splitDots s ≠ splitDots p) && b) false l = Spec.active l s := ih'
  cases op with
  | sub p =>
    have hp : norm (splitDots p) = splitDots p := norm_wf hop
    simp only [ih'', hp]
    by_cases he : p = s
    · subst he; simp
    · rw [if_neg he]
      have : splitDots s ≠ splitDots p := fun h => he (splitDots_inj h).symm
      simp [this]
  | unsub p =>
    simp only [ih'']
    by_cases he : p = s
    · subst he; simp
    · rw [if_neg he]
      have : splitDots s ≠ splitDots p := fun h => he (splitDots_inj h).symm
      simp [this]

/-- Every subscribed path of a well-formed history is the path of an active pattern. -/
theorem has_is_pattern (ops : List Spec.Op) (hwf : ∀ op ∈ ops, Spec.WellFormed op.pattern)
    (q : List Str) (h : has (Spec.filterAfter ops) q = true) : ∃ s, q = splitDots s := by
  rw [has_filterAfter] at h
  revert hwf h
  refine snoc_induction (P := fun ops => (∀ op ∈ ops, Spec.WellFormed op.pattern) →
    paths ops q = true → ∃ s, q = splitDots s) (fun _ h => by simp [paths] at h) ?_ ops
  intro l op ih hwf h
  have ih' := ih (fun o ho => hwf o (List.mem_append_left _ ho))
  have hop := hwf op (by simp)
  simp only [paths, List.foldl_append, List.foldl_cons, List.foldl_nil] at h
  cases op with
  | sub p =>
    have hp : norm (splitDots p) = splitDots p := norm_wf hop
    simp only [hp, Bool.or_eq_true, decide_eq_true_eq] at h
    rcases h with h | h
    · exact ⟨p, h⟩
    · exact ih' h
  | unsub p =>
    simp only [Bool.and_eq_true] at h
    exact ih' h.2

theorem literal_wf {p : Str} (h : Spec.Literal p) : Spec.WellFormed p :=
  fun hh => h.2 ((List.dropLast_sublist _).mem hh)

theorem tokMatches_literal {p ts : List Str} (h1 : STAR ∉ p) (h2 : GT ∉ p)
    (h : Spec.TokMatches p ts) : p = ts := by
  induction h with
  | nil => rfl
  | lit _ ih =>
    rw [ih (fun hh => h1 (List.mem_cons_of_mem _ hh)) (fun hh => h2 (List.mem_cons_of_mem _ hh))]
  | star => exact absurd (List.mem_cons_self ..) h1
  | gt => exact absurd (List.mem_cons_self ..) h2

end MsgRs.Trie
