import Verif.Proofs.Trie
/-!
# Properties C15–C19: topic subscriptions of a publisher session

`filterAfter ops` is the session's filter after the subscribe/unsubscribe operations `ops`;
`Trie.contains` is the test applied to every published message (session.rs:46).
-/
namespace MsgRs.Props
open MsgRs Spec

/-- Readable string literals in examples. -/
def str (s : String) : Str := s.toList

/-! ## C15 -/

/-- C15: with wildcard-free subscriptions a topic is matched iff it is currently subscribed. -/
theorem C15_literal_exact (ops : List Op) (hlit : ∀ op ∈ ops, Literal op.pattern) (topic : Str) :
    Trie.contains (filterAfter ops) topic = true ↔ active ops topic = true := by
  have hwf : ∀ op ∈ ops, WellFormed op.pattern := fun op h => Trie.literal_wf (hlit op h)
  -- every active pattern is literal
  have hal : ∀ s, active ops s = true → Literal s := by
    intro s
    revert hlit
    refine Trie.snoc_induction (P := fun ops => (∀ op ∈ ops, Literal op.pattern) →
      active ops s = true → Literal s) (fun _ h => by simp [active] at h) ?_ ops
    intro l op ih hl h
    have ih' := ih (fun o ho => hl o (List.mem_append_left _ ho))
    have hop := hl op (by simp)
    rw [Trie.active_snoc] at h
    cases op with
    | sub q =>
      simp only at h
      split at h
      · rename_i he; subst he; exact hop
      · exact ih' h
    | unsub q =>
      simp only at h
      split at h
      · simp at h
      · exact ih' h
  constructor
  · intro h
    rcases Trie.sound (Trie.filterAfter_ok ops) _ h with h1 | ⟨p, hp, hm⟩
    · cases h1
    · obtain ⟨s, rfl⟩ := Trie.has_is_pattern ops hwf p hp
      rw [Trie.has_wf ops hwf] at hp
      have hs := hal s hp
      have := Trie.tokMatches_literal hs.1 hs.2 hm
      rwa [Trie.splitDots_inj this] at hp
  · intro h
    refine Trie.complete_literal _ ?_
    rw [Trie.has_wf ops hwf]; exact h

/-- A non-trivial history meets the hypotheses. -/
example : (∀ op ∈ [Op.sub (str "a.b"), .sub (str "a"), .unsub (str "a.b"), .sub (str "a.b.c")],
      Literal op.pattern) ∧
    active [Op.sub (str "a.b"), .sub (str "a"), .unsub (str "a.b"), .sub (str "a.b.c")]
      (str "a.b.c") = true ∧
    active [Op.sub (str "a.b"), .sub (str "a"), .unsub (str "a.b"), .sub (str "a.b.c")]
      (str "a.b") = false := by
  refine ⟨?_, by decide, by decide⟩
  intro op h
  unfold Literal
  simp only [List.mem_cons, List.not_mem_nil, or_false] at h
  rcases h with rfl | rfl | rfl | rfl <;> decide

/-! ## C16 -/

/-- C16: a published topic passes the filter only if an active pattern matches it. -/
theorem C16_no_unsolicited (ops : List Op) (hwf : ∀ op ∈ ops, WellFormed op.pattern) (topic : Str)
    (h : Trie.contains (filterAfter ops) topic = true) :
    ∃ p, active ops p = true ∧ Matches p topic := by
  rcases Trie.sound (Trie.filterAfter_ok ops) _ h with h1 | ⟨p, hp, hm⟩
  · cases h1
  · obtain ⟨s, rfl⟩ := Trie.has_is_pattern ops hwf p hp
    exact ⟨s, by rw [← Trie.has_wf ops hwf]; exact hp, hm⟩

example : Trie.contains (filterAfter [.sub (str "foo.*.baz"), .sub (str "foo.bar.qux"),
      .unsub (str "foo.bar.qux")]) (str "foo.bar.baz") = true ∧
    (∀ op ∈ [Op.sub (str "foo.*.baz"), .sub (str "foo.bar.qux"), .unsub (str "foo.bar.qux")],
      WellFormed op.pattern) := by
  refine ⟨by decide, ?_⟩
  intro op h
  unfold WellFormed
  simp only [List.mem_cons, List.not_mem_nil, or_false] at h
  rcases h with rfl | rfl | rfl <;> decide

/-- Why C16 speaks of well-formed patterns: a pattern with tokens after `>` is stored shortened and
cannot be unsubscribed. -/
theorem C16_malformed_pattern_sticks :
    active [.sub (str "a.>.b"), .unsub (str "a.>.b")] (str "a.>.b") = false ∧
    Trie.contains (filterAfter [.sub (str "a.>.b"), .unsub (str "a.>.b")]) (str "a.>") = true := by
  decide

/-! ## C17 -/

/-- C17 (refuted as stated in English): `foo.>` does not match `foo.bar`, `>` matches nothing
ordinary, and a literal branch hides a matching `*` pattern. -/
theorem C17_wildcard_complete_refuted :
    (Matches (str "foo.>") (str "foo.bar") ∧
      Trie.contains (filterAfter [.sub (str "foo.>")]) (str "foo.bar") = false) ∧
    (Matches (str ">") (str "foo") ∧
      Trie.contains (filterAfter [.sub (str ">")]) (str "foo") = false) ∧
    (Matches (str "foo.*.baz") (str "foo.bar.baz") ∧
      Trie.contains (filterAfter [.sub (str "foo.*.baz"), .sub (str "foo.bar.qux")])
        (str "foo.bar.baz") = false) := by
  refine ⟨⟨?_, by decide⟩, ⟨?_, by decide⟩, ⟨?_, by decide⟩⟩
  · exact .lit .gt
  · exact .gt
  · exact .lit (.star (.lit .nil))

/-- C17: `>` has no effect on ordinary topics: whenever a topic without a literal `>` token passes
the filter, an active pattern without `>` matches it. (So `>` patterns never deliver anything.) -/
theorem C17_gt_ineffective (ops : List Op) (hwf : ∀ op ∈ ops, WellFormed op.pattern) (topic : Str)
    (hts : ['>'] ∉ splitDots topic) (h : Trie.contains (filterAfter ops) topic = true) :
    ∃ p, active ops p = true ∧ Matches p topic ∧ ['>'] ∉ splitDots p := by
  obtain ⟨p, hp, hm, hg⟩ := Trie.sound_nogt (Trie.filterAfter_ok ops) _ hts h
  obtain ⟨s, rfl⟩ := Trie.has_is_pattern ops hwf p hp
  exact ⟨s, by rw [← Trie.has_wf ops hwf]; exact hp, hm, hg⟩

/-- C17 (partial): an active `>`-free pattern that matches the topic makes it pass the filter,
provided no active subscription leaves the pattern's path by spelling out a token of the topic where
the pattern has `*`. In particular: always when the topic itself is subscribed, and always when the
pattern is the only one active. Missing: `>` patterns and shadowed `*` patterns, where the code does
not deliver. -/
theorem C17_wildcard_complete_partial (ops : List Op) (hwf : ∀ op ∈ ops, WellFormed op.pattern)
    (p topic : Str) (hact : active ops p = true) (hm : Matches p topic)
    (hgt : ['>'] ∉ splitDots p)
    (hunshadowed : ∀ q, active ops q = true → ∀ i t,
      (splitDots q).take i = (splitDots p).take i → (splitDots topic)[i]? = some t →
      (splitDots q)[i]? = some t → (splitDots p)[i]? = some t) :
    Trie.contains (filterAfter ops) topic = true := by
  refine Trie.complete_unshadowed (Trie.filterAfter_ok ops) (splitDots p) (splitDots topic) ?_ hm
    hgt ?_
  · rw [Trie.has_wf ops hwf]; exact hact
  · intro q hq
    obtain ⟨s, rfl⟩ := Trie.has_is_pattern ops hwf q hq
    rw [Trie.has_wf ops hwf] at hq
    exact hunshadowed s hq

/-- C17: a subscribed topic always passes, whatever wildcards are also subscribed. -/
theorem C17_subscribed_topic_passes (ops : List Op) (hwf : ∀ op ∈ ops, WellFormed op.pattern)
    (topic : Str) (h : active ops topic = true) :
    Trie.contains (filterAfter ops) topic = true := by
  refine Trie.complete_literal _ ?_
  rw [Trie.has_wf ops hwf]; exact h

/-- The unshadowed case with two wildcard patterns and a literal one elsewhere. -/
example : Trie.contains (filterAfter [.sub (str "foo.*.baz"), .sub (str "foo.bar.qux")])
    (str "foo.other.baz") = true ∧
    active [.sub (str "foo.*.baz"), .sub (str "foo.bar.qux")] (str "foo.*.baz") = true := by decide

/-- All hypotheses of the partial theorem hold for a concrete case (one wildcard pattern). -/
example : Trie.contains (filterAfter [.sub (str "a.*")]) (str "a.b") = true := by
  refine C17_wildcard_complete_partial [.sub (str "a.*")] ?_ (str "a.*") (str "a.b") (by decide)
    (.lit (.star .nil)) (by decide) ?_
  · intro op h; simp only [List.mem_cons, List.not_mem_nil, or_false] at h; subst h
    unfold WellFormed; decide
  · intro q hq i t h1 h2 h3
    have : q = str "a.*" := by
      by_cases he : str "a.*" = q
      · exact he.symm
      · simp [active, he] at hq
    subst this
    exact h3

/-! ## C18 -/

/-- C18: what the filter matches depends only on which patterns are active, not on the order or
number of operations that led there. -/
theorem C18_only_active_set_matters (ops ops' : List Op)
    (hwf : ∀ op ∈ ops, WellFormed op.pattern) (hwf' : ∀ op ∈ ops', WellFormed op.pattern)
    (hsame : ∀ p, active ops p = active ops' p) (topic : Str) :
    Trie.contains (filterAfter ops) topic = Trie.contains (filterAfter ops') topic := by
  refine Trie.containsAt_congr (Trie.filterAfter_ok ops) (Trie.filterAfter_ok ops') ?_ _
  intro q
  cases h : Trie.has (filterAfter ops) q with
  | true =>
    obtain ⟨s, rfl⟩ := Trie.has_is_pattern ops hwf q h
    rw [Trie.has_wf ops hwf, hsame, ← Trie.has_wf ops' hwf'] at h
    exact h.symm
  | false =>
    cases h' : Trie.has (filterAfter ops') q with
    | false => rfl
    | true =>
      obtain ⟨s, rfl⟩ := Trie.has_is_pattern ops' hwf' q h'
      rw [Trie.has_wf ops' hwf', ← hsame, ← Trie.has_wf ops hwf] at h'
      rw [h] at h'; cases h'

/-- C18: unsubscribing a pattern that is not active changes nothing observable. -/
theorem C18_unsub_absent (ops : List Op) (p : Str) (hwf : ∀ op ∈ ops, WellFormed op.pattern)
    (hp : WellFormed p) (hna : active ops p = false) (topic : Str) :
    Trie.contains (filterAfter (ops ++ [.unsub p])) topic = Trie.contains (filterAfter ops) topic := by
  refine C18_only_active_set_matters _ _ ?_ hwf ?_ topic
  · intro op h
    rcases List.mem_append.mp h with h | h
    · exact hwf op h
    · simp at h; subst h; exact hp
  · intro q
    rw [Trie.active_snoc]
    simp only
    split
    · rename_i h; subst h; exact hna.symm
    · rfl

/-- C18: unsubscribing undoes any number of subscriptions to the same pattern and nothing else. -/
theorem C18_unsub_undoes (ops : List Op) (p : Str) (n : Nat)
    (hwf : ∀ op ∈ ops, WellFormed op.pattern) (hp : WellFormed p) (hna : active ops p = false)
    (topic : Str) :
    Trie.contains (filterAfter (ops ++ List.replicate n (.sub p) ++ [.unsub p])) topic
      = Trie.contains (filterAfter ops) topic := by
  refine C18_only_active_set_matters _ _ ?_ hwf ?_ topic
  · intro op h
    rcases List.mem_append.mp h with h | h
    · rcases List.mem_append.mp h with h | h
      · exact hwf op h
      · rw [(List.mem_replicate.mp h).2]; exact hp
    · simp at h; subst h; exact hp
  · intro q
    rw [Trie.active_snoc]
    simp only
    split
    · rename_i h; subst h; exact hna.symm
    · rename_i h
      induction n with
      | zero => simp
      | succ n ih =>
        rw [List.replicate_succ', ← List.append_assoc, Trie.active_snoc]
        simp only [h, if_false]
        exact ih

example : active [.sub (str "a.b"), .unsub (str "a.b"), .sub (str "a.*")] (str "a.b") = false ∧
    WellFormed (str "a.b") := by unfold WellFormed; decide

/-! ## C19 -/

/-- C19: when no pattern is active any more, the filter is exactly the fresh one. -/
theorem C19_no_residue (ops : List Op) (hwf : ∀ op ∈ ops, WellFormed op.pattern)
    (hnone : ∀ p, active ops p = false) : filterAfter ops = Trie.Node.new := by
  have hok := Trie.filterAfter_ok ops
  have hhas : ∀ q, Trie.has (filterAfter ops) q = false := by
    intro q
    cases h : Trie.has (filterAfter ops) q with
    | false => rfl
    | true =>
      obtain ⟨s, rfl⟩ := Trie.has_is_pattern ops hwf q h
      rw [Trie.has_wf ops hwf, hnone] at h
      cases h
  have hch : (filterAfter ops).children = [] := by
    refine Trie.getChild_none_all ?_
    intro k
    cases hc : Trie.getChild k (filterAfter ops).children with
    | none => rfl
    | some c =>
      obtain ⟨p, hp⟩ := (hok.kids k c hc).exists_has
      rw [← Trie.has_child hc, hhas] at hp
      cases hp
  have hte : (filterAfter ops).topicEnd = false := hhas []
  have hca := hok.catchAll
  revert hch hte hca
  cases filterAfter ops with
  | mk ch a e =>
    simp only [Trie.children_mk, Trie.topicEnd_mk, Trie.catchAll_mk]
    rintro rfl rfl rfl
    rfl

/-- The hypothesis is met by a history that subscribed several overlapping patterns. -/
example : ∀ p, active [.sub (str "a.b"), .sub (str "a.>"), .sub (str "a"), .unsub (str "a.b"),
    .unsub (str "a"), .unsub (str "a.>")] p = false := by
  intro p
  simp only [active, List.foldl_cons, List.foldl_nil]
  by_cases h1 : str "a.>" = p
  · simp [h1]
  · by_cases h2 : str "a" = p
    · simp [h2]
    · by_cases h3 : str "a.b" = p
      · simp [h3]
      · simp [h1, h2, h3]

end MsgRs.Props
