import Verif.Spec.Subscribed
import Verif.Props.Topics
import Verif.Props.PubServer
/-!
# C15–C19 for publisher sessions: what goes over a connection, by the subscriptions it received
-/
namespace MsgRs.Trie
open MsgRs

/-- The filter follows a path that nothing shadows. -/
theorem sound_unshadowed {n : Node} (h : PreOK false n) (ts : List Str) (hts : GT ∉ ts) (hc : containsAt n ts = true) :
    ∃ p, has n p = true ∧ Spec.TokMatches p ts ∧ GT ∉ p ∧
      ∀ q, has n q = true → ∀ i t, q.take i = p.take i → ts[i]? = some t → q[i]? = some t → p[i]? = some t := by
  induction ts generalizing n with
  | nil =>
    simp only [containsAt, Bool.or_eq_true] at hc
    rcases hc with hc | hc
    · exact ⟨[], hc, .nil, by simp, by intro q _ i t _ h; simp at h⟩
    · rw [h.catchAll] at hc; cases hc
  | cons t ts ih =>
    have ht : t ≠ GT := fun h => hts (by simp [h])
    have hts' : GT ∉ ts := fun h => hts (List.mem_cons_of_mem _ h)
    have down : ∀ (a : Str) (c : Node), getChild a n.children = some c → a ≠ GT → (a = t ∨ (a = STAR ∧ getChild t n.children = none)) →
        containsAt c ts = true → ∃ p, has n p = true ∧ Spec.TokMatches p (t :: ts) ∧ GT ∉ p ∧
          ∀ q, has n q = true → ∀ i u, q.take i = p.take i → (t :: ts)[i]? = some u → q[i]? = some u → p[i]? = some u := by
      intro a c hch hag hat hcc
      have hk := h.kids a c hch
      rw [decide_eq_false hag] at hk
      obtain ⟨p, hp, hm, hg, hns⟩ := ih hk.pre hts' hcc
      refine ⟨a :: p, by rw [has_child hch]; exact hp, ?_, ?_, ?_⟩
      · rcases hat with rfl | ⟨rfl, -⟩
        · exact .lit hm
        · exact .star hm
      · intro hh
        rcases List.mem_cons.mp hh with hh | hh
        · exact hag hh.symm
        · exact hg hh
      · intro q hq i u hi hti hqi
        cases i with
        | zero =>
          simp only [List.getElem?_cons_zero, Option.some.injEq] at hti
          subst hti
          rcases hat with rfl | ⟨rfl, hn⟩
          · rfl
          · cases q with
            | nil => simp at hqi
            | cons b q =>
              simp only [List.getElem?_cons_zero, Option.some.injEq] at hqi
              subst hqi
              obtain ⟨c', h1, -⟩ := child_of_has hq
              rw [hn] at h1; cases h1
        | succ i =>
          cases q with
          | nil => simp at hqi
          | cons b q =>
            simp only [List.take_succ_cons, List.cons.injEq] at hi
            obtain ⟨rfl, hi⟩ := hi
            simp only [List.getElem?_cons_succ] at hti hqi ⊢
            rw [has_child hch] at hq
            exact hns q hq i u hi hti hqi
    simp only [containsAt] at hc
    split at hc
    · rename_i c hch
      exact down t c hch ht (.inl rfl) hc
    · rename_i hn
      split at hc
      · rename_i c hch
        exact down STAR c hch (by simp [STAR, GT]) (.inr ⟨rfl, hn⟩) hc
      · rw [h.catchAll] at hc; cases hc

end MsgRs.Trie

namespace MsgRs.Props
open MsgRs Spec Pub

/-- C17, exactly what passes: a topic without a `>` token passes the filter iff an active pattern without `>` matches it that no
active pattern shadows. (So the only things missing from C17 are `>` patterns and shadowed patterns.) -/
theorem C17_exactly (ops : List Op) (hwf : ∀ op ∈ ops, WellFormed op.pattern) (topic : Str) (hts : ['>'] ∉ splitDots topic) :
    Trie.contains (filterAfter ops) topic = true ↔ ∃ p, PassedBy ops topic p := by
  constructor
  · intro h
    obtain ⟨p, h1, h2, h3, h4⟩ := Trie.sound_unshadowed (Trie.filterAfter_ok ops) (splitDots topic) hts h
    obtain ⟨s, rfl⟩ := Trie.has_is_pattern ops hwf p h1
    rw [Trie.has_wf ops hwf] at h1
    refine ⟨s, h1, h2, h3, ?_⟩
    intro q hq
    rw [← Trie.has_wf ops hwf] at hq
    exact h4 _ hq
  · rintro ⟨p, h1, h2, h3, h4⟩
    exact C17_wildcard_complete_partial ops hwf p topic h1 h2 h3 h4

/-- The filter can be replaced by any test that agrees with it on the topics and operations of a history. -/
theorem due_dueBy (L : Lossy) (pass : List Op → Str → Bool) (evs : List Ev) (ops : List Op) (k : Nat)
    (h : ∀ pre suf m now, evs = pre ++ .took m now :: suf →
      Trie.contains (filterAfter (ops ++ opsOf L pre)) m.topic = pass (ops ++ opsOf L pre) m.topic) :
    due L ops k evs = dueBy L pass ops k evs := by
  induction evs generalizing ops k with
  | nil => rfl
  | cons ev evs ih =>
    have hnext : ∀ k, (∀ m, ev ≠ .incoming m) → due L ops k evs = dueBy L pass ops k evs := by
      intro k hne
      refine ih ops k ?_
      intro pre suf m now he
      have := h (ev :: pre) suf m now (by rw [he]; rfl)
      have ho : opsOf L (ev :: pre) = opsOf L pre := by
        cases ev with
        | incoming m => exact absurd rfl (hne m)
        | _ => rfl
      rwa [ho] at this
    cases ev with
    | took m now =>
      have h0 := h [] evs m now rfl
      rw [show opsOf L [] = [] from rfl, List.append_nil] at h0
      simp only [due, dueBy]
      rw [h0]
      split
      · rw [hnext (k + 1) (by simp)]
      · exact hnext k (by simp)
    | incoming m =>
      simp only [due, dueBy]
      refine ih _ k ?_
      intro pre suf m' now he
      have := h (.incoming m :: pre) suf m' now (by rw [he]; rfl)
      have ho : opsOf L (.incoming m :: pre) = (controlOp L m).toList ++ opsOf L pre := by
        unfold opsOf
        rw [List.filterMap_cons]
        simp only
        cases controlOp L m <;> rfl
      rwa [ho, ← List.append_assoc] at this
    | _ => exact hnext k (by simp)

theorem opsOf_sub (L : Lossy) (pre suf : List Ev) : ∀ op ∈ opsOf L pre, op ∈ opsOf L (pre ++ suf) := by
  intro op h
  rw [opsOf_append]
  exact List.mem_append_left _ h

/-- C15, on the wire: over a connection whose subscriptions are all literal topics, what is sent (or about to be) is exactly the
messages taken from the feed whose topic was subscribed, and not unsubscribed since, at that time. -/
theorem C15_session (L : Lossy) (boundary : Nat) (input : List ReadAns) (es : List Env) (s : Session) (evs : List Ev)
    (hrun : (Session.new boundary input).run L es = .ok (s, evs)) (hlit : ∀ op ∈ opsOf L evs, Literal op.pattern) :
    sentOf evs ++ s.pending.toList = dueBy L active [] 0 evs := by
  rw [(C22_session_in_order L boundary input es s evs hrun).1]
  refine due_dueBy L active evs [] 0 ?_
  intro pre suf m now he
  rw [List.nil_append]
  have := C15_literal_exact (opsOf L pre) (fun op h => hlit op (he ▸ opsOf_sub L pre _ op h)) m.topic
  exact Bool.eq_iff_iff.2 this

theorem mem_due_took {L : Lossy} {f : PubSub.Message} (evs : List Ev) (ops : List Op) (k : Nat) (h : f ∈ due L ops k evs) :
    ∃ pre m now suf n, evs = pre ++ .took m now :: suf ∧ f = frame n m now ∧
      Trie.contains (filterAfter (ops ++ opsOf L pre)) m.topic = true := by
  induction evs generalizing ops k with
  | nil => cases h
  | cons ev evs ih =>
    have hnext : ∀ ops' k, f ∈ due L ops' k evs → (∀ pre, ops ++ opsOf L (ev :: pre) = ops' ++ opsOf L pre) →
        ∃ pre m now suf n, ev :: evs = pre ++ .took m now :: suf ∧ f = frame n m now ∧
          Trie.contains (filterAfter (ops ++ opsOf L pre)) m.topic = true := by
      intro ops' k hf hops
      obtain ⟨pre, m, now, suf, n, h1, h2, h3⟩ := ih ops' k hf
      exact ⟨ev :: pre, m, now, suf, n, by rw [h1]; rfl, h2, by rw [hops]; exact h3⟩
    cases ev with
    | took m now =>
      simp only [due] at h
      split at h
      · rename_i hc
        rcases List.mem_cons.1 h with rfl | h
        · exact ⟨[], m, now, evs, k, rfl, rfl, by rw [show opsOf L [] = [] from rfl, List.append_nil]; exact hc⟩
        · exact hnext ops _ h (fun _ => rfl)
      · exact hnext ops _ h (fun _ => rfl)
    | incoming m =>
      simp only [due] at h
      refine hnext _ _ h (fun pre => ?_)
      have ho : opsOf L (.incoming m :: pre) = (controlOp L m).toList ++ opsOf L pre := by
        unfold opsOf
        rw [List.filterMap_cons]
        simp only
        cases controlOp L m <;> rfl
      rw [ho, List.append_assoc]
    | _ => exact hnext ops _ h (fun _ => rfl)

/-- C16, on the wire: every message sent over a connection (or about to be) was taken from the feed at a time when a pattern
subscribed over this connection, and not unsubscribed since, matched its topic. -/
theorem C16_session (L : Lossy) (boundary : Nat) (input : List ReadAns) (es : List Env) (s : Session) (evs : List Ev)
    (hrun : (Session.new boundary input).run L es = .ok (s, evs)) (hwf : ∀ op ∈ opsOf L evs, WellFormed op.pattern)
    (f : PubSub.Message) (hf : f ∈ sentOf evs ++ s.pending.toList) :
    ∃ pre m now suf n, evs = pre ++ .took m now :: suf ∧ f = frame n m now ∧
      ∃ p, active (opsOf L pre) p = true ∧ Matches p m.topic := by
  rw [(C22_session_in_order L boundary input es s evs hrun).1] at hf
  obtain ⟨pre, m, now, suf, n, h1, h2, h3⟩ := mem_due_took evs [] 0 hf
  rw [List.nil_append] at h3
  exact ⟨pre, m, now, suf, n, h1, h2, C16_no_unsolicited _ (fun op h => hwf op (h1 ▸ opsOf_sub L pre _ op h)) _ h3⟩

open Classical in
/-- C17, on the wire, exactly: over a connection with well-formed patterns, what is sent (or about to be) is exactly the
messages taken from the feed whose topic (without a `>` token) was matched at that time by an active pattern without `>` that no
active pattern shadows. -/
theorem C17_session_exact (L : Lossy) (boundary : Nat) (input : List ReadAns) (es : List Env) (s : Session) (evs : List Ev)
    (hrun : (Session.new boundary input).run L es = .ok (s, evs)) (hwf : ∀ op ∈ opsOf L evs, WellFormed op.pattern)
    (hts : ∀ m ∈ tookOf evs, ['>'] ∉ splitDots m.topic) :
    sentOf evs ++ s.pending.toList = dueBy L (fun ops topic => decide (∃ p, PassedBy ops topic p)) [] 0 evs := by
  rw [(C22_session_in_order L boundary input es s evs hrun).1]
  refine due_dueBy L _ evs [] 0 ?_
  intro pre suf m now he
  rw [List.nil_append]
  have hm : m ∈ tookOf evs := by
    rw [he]; unfold tookOf; rw [List.filterMap_append]
    exact List.mem_append_right _ (by simp)
  have := C17_exactly (opsOf L pre) (fun op h => hwf op (he ▸ opsOf_sub L pre _ op h)) m.topic (hts m hm)
  rw [Bool.eq_iff_iff, this, decide_eq_true_iff]

/-- C18, on the wire: whether a message is sent depends on its topic and the set of patterns active at that time, and on nothing
else: neither on the order or number of the operations that led there, nor on the connection. -/
theorem C18_session : ∃ pass : (Str → Bool) → Str → Bool,
    ∀ (L : Lossy) (boundary : Nat) (input : List ReadAns) (es : List Env) (s : Session) (evs : List Ev),
      (Session.new boundary input).run L es = .ok (s, evs) → (∀ op ∈ opsOf L evs, WellFormed op.pattern) →
      sentOf evs ++ s.pending.toList = dueBy L (fun ops topic => pass (active ops) topic) [] 0 evs := by
  classical
  refine ⟨fun P topic => decide (∃ ops, (∀ op ∈ ops, WellFormed op.pattern) ∧ active ops = P ∧ Trie.contains (filterAfter ops) topic = true), ?_⟩
  intro L boundary input es s evs hrun hwf
  rw [(C22_session_in_order L boundary input es s evs hrun).1]
  refine due_dueBy L _ evs [] 0 ?_
  intro pre suf m now he
  rw [List.nil_append]
  have hw : ∀ op ∈ opsOf L pre, WellFormed op.pattern := fun op h => hwf op (he ▸ opsOf_sub L pre _ op h)
  rw [Bool.eq_iff_iff, decide_eq_true_iff]
  constructor
  · intro h
    exact ⟨opsOf L pre, hw, rfl, h⟩
  · rintro ⟨ops, h1, h2, h3⟩
    rw [← C18_only_active_set_matters ops (opsOf L pre) h1 hw (fun p => congrFun h2 p)]
    exact h3

theorem active_snoc_unsub (ops : List Op) (p q : Str) : active (ops ++ [.unsub p]) q = (if p = q then false else active ops q) := by
  unfold active
  rw [List.foldl_append]
  rfl

/-- C18: unsubscribing a pattern does not take away a topic that the pattern does not match. -/
theorem C18_unsub_keeps_others (ops : List Op) (p topic : Str) (hwf : ∀ op ∈ ops, WellFormed op.pattern) (hp : WellFormed p)
    (hts : ['>'] ∉ splitDots topic) (hno : ¬ Matches p topic) (h : Trie.contains (filterAfter ops) topic = true) :
    Trie.contains (filterAfter (ops ++ [.unsub p])) topic = true := by
  obtain ⟨q, h1, h2, h3, h4⟩ := (C17_exactly ops hwf topic hts).1 h
  refine (C17_exactly _ ?_ topic hts).2 ⟨q, ?_, h2, h3, ?_⟩
  · intro op ho
    rcases List.mem_append.1 ho with ho | ho
    · exact hwf op ho
    · simp at ho; subst ho; exact hp
  · rw [active_snoc_unsub, if_neg]
    · exact h1
    · rintro rfl; exact hno h2
  · intro r hr
    rw [active_snoc_unsub] at hr
    split at hr
    · cases hr
    · exact h4 r hr

/-- C19, on the wire: once every pattern subscribed over a connection was unsubscribed, its session keeps no memory of any. -/
theorem C19_session (L : Lossy) (boundary : Nat) (input : List ReadAns) (es : List Env) (s : Session) (evs : List Ev)
    (hrun : (Session.new boundary input).run L es = .ok (s, evs)) (hwf : ∀ op ∈ opsOf L evs, WellFormed op.pattern)
    (hnone : ∀ p, active (opsOf L evs) p = false) : s.filter = (Session.new boundary input).filter := by
  rw [(run_inv hrun).filter, C19_no_residue _ hwf hnone]
  rfl

/-- A connection that subscribes to the given patterns, each in its own frame, and unsubscribes from the last one. -/
def subFrame (p : Bytes) : Bytes := PubSub.encode ⟨⟨0, UInt16.ofNat (8 + p.length), PubSub.subPrefix ++ p, 1, 0, 0⟩, []⟩
def unsubFrame (p : Bytes) : Bytes := PubSub.encode ⟨⟨0, UInt16.ofNat (10 + p.length), PubSub.unsubPrefix ++ p, 1, 0, 0⟩, []⟩

def idleEnv (f : FeedAns) : Env := { tick := true, flushAns := [.ok 100, .ok 1], readyAns := [], closeAns := [], feed := f, now := 7 }

/-- A property of a session and its history. -/
def sessAfter (input : List ReadAns) (es : List Env) (p : Session → List Ev → Bool) : Bool :=
  match (Session.new 8192 input).run Lossy.strict es with
  | .ok (s, evs) => p s evs
  | .panic => false

/-- C15 and C19: `a` is subscribed and unsubscribed; `b` is published before, `a` in between and after. -/
example : sessAfter [.data (subFrame [0x61]), .pending, .data (unsubFrame [0x61])]
    [idleEnv .pending, idleEnv (.msg ⟨.none, ['b'], [1]⟩), idleEnv (.msg ⟨.none, ['a'], [2]⟩), idleEnv .pending, idleEnv .pending,
     idleEnv .pending, idleEnv .pending, idleEnv (.msg ⟨.none, ['a'], [3]⟩)] (fun s evs =>
      decide (opsOf Lossy.strict evs = [.sub ['a'], .unsub ['a']]) && decide ((tookOf evs).map (·.payload) = [[1], [2], [3]]) &&
      decide ((sentOf evs ++ s.pending.toList).map (·.payload) = [[2]]) && s.filter.children.isEmpty) = true := by decide +kernel

/-- C16, C17 and C18: `a.*` is subscribed, and then `a.c.d`, which hides it for `a.c`. -/
example : sessAfter [.data (subFrame [0x61, 0x2e, 0x2a]), .pending, .data (subFrame [0x61, 0x2e, 0x63, 0x2e, 0x64])]
    [idleEnv .pending, idleEnv (.msg ⟨.none, ['a', '.', 'c'], [1]⟩), idleEnv .pending, idleEnv .pending, idleEnv .pending,
     idleEnv (.msg ⟨.none, ['a', '.', 'c'], [2]⟩), idleEnv (.msg ⟨.none, ['a', '.', 'e'], [3]⟩)] (fun s evs =>
      decide (opsOf Lossy.strict evs = [.sub ['a', '.', '*'], .sub ['a', '.', 'c', '.', 'd']]) &&
      decide ((tookOf evs).map (·.payload) = [[1], [2], [3]]) &&
      decide ((sentOf evs ++ s.pending.toList).map (·.payload) = [[1], [3]]) &&
      decide ((['>'] : Str) ∉ splitDots ['a', '.', 'c']) && decide (['>'] ∉ (splitDots ['a', '.', 'c', '.', 'd']).dropLast)) = true := by
  decide +kernel

/-- A pattern that matches a topic, with one active beside it that does not. -/
example : Trie.contains (filterAfter [.sub (str "a.*"), .sub (str "b")]) (str "a.c") = true ∧
    Trie.contains (filterAfter [.sub (str "a.*"), .sub (str "b"), .unsub (str "b")]) (str "a.c") = true ∧
    (['>'] : Str) ∉ splitDots (str "a.c") := by decide +kernel

end MsgRs.Props
