import Verif.Proofs.SubTopicLimit
import Verif.Spec.SubRuns
/-!
# C76: subscribing to topics that do not fit on the wire
-/
namespace MsgRs.Props
open MsgRs MsgRs.Sub
variable {A : Type} [DecidableEq A]

/-- C76 (partial): as long as the topics the user names have at most 65525 bytes, no session task ends unless the
driver has let go of it (because the user disconnected). Missing: a longer topic is accepted and ends them all (`C76_long_topic_refuted`). -/
theorem C76_short_topics_partial (L : Lossy) (D : Decompressors) (d : Driver A) (h : Reach L D d)
    (hshort : ∀ c ∈ d.processed, c.short 65525) (u : Nat) (s : Session) (hs : d.sessions[u]? = some s)
    (ho : s.over = true) : s.alive = false ∧ ∀ a, ¬ d.Active a u := by
  have hd := h.inv
  have hu : Unbroken d := by
    obtain ⟨opts, now, d0, acts, h0, h1⟩ := h
    refine Unbroken.steps (DInv.init (L := L) (D := D) h0) (TInv.init h0) (run_steps acts d0 d h1) ?_ hshort
    unfold Driver.new at h0
    split at h0
    · cases h0
    · cases h0; intro u s hu; simp at hu
  have ha := hu u s hs ho
  refine ⟨ha, fun a hact => ?_⟩
  obtain ⟨-, s', g1, g2⟩ := hd.act a u hact
  rw [hs] at g1
  cases g1
  rw [ha] at g2
  cases g2

/-- C76 (refuted as stated), in general: a topic of more than 65527 bytes is accepted by `try_subscribe` like any
other. From then on, for as long as the user does not unsubscribe from it, every connection (that was given no more than 64 commands) is
doomed: it has yet to handle that subscription, and the session task that comes to it ends, taking the connection with it. -/
theorem C76_long_topic_refuted (t : Str) (hlong : 65527 < (utf8 t).length) :
    (∀ d : Driver A, ¬ ['M', 'S', 'G'] <+: t → d.cmdq.length < 1024 → (d.trySubscribe t).1 = .ok ()) ∧
    (∀ (L : Lossy) (D : Decompressors) (d : Driver A) (a : A) (u : Nat) (s : Session), Reach L D d → t ∈ d.topics →
      d.Active a u → d.sessions[u]? = some s → s.over = false → s.offered.length ≤ 64 → .subscribe t ∈ s.cmds) ∧
    (∀ (s : Session) (e : SEnv) (cs : List Cmd), s.cmds = .subscribe t :: cs → (s.cmdStep e).2 = .ended) := by
  have hp : ∀ now, (Cmd.subscribe t).msg now = .panic := by
    intro now
    simp only [Cmd.msg, PubSub.Message.newSub, PubSub.Message.new]
    rw [if_neg (by simp [PubSub.subPrefix]; omega)]
  refine ⟨?_, ?_, ?_⟩
  · intro d hr hq
    have : reserved t = false := by
      unfold reserved
      rw [Bool.eq_false_iff]
      intro h
      exact hr (List.isPrefixOf_iff_prefix.1 h)
    have hq' : d.ensureActive.cmdq.length < cmdCap := hq
    simp only [Driver.trySubscribe, this, Bool.false_eq_true, if_false, Driver.trySend]
    rw [if_pos hq']
  · intro L D d a u s h ht ha hs ho hlen
    have hi := h.inv.sess u s hs
    have hact := h.topics.offered a u s ha hs t
    simp only [ht, decide_true] at hact
    have hm := active_mem _ _ hact
    obtain ⟨c, hc, hop⟩ := List.mem_map.1 hm
    have hc' : c = .subscribe t := by cases c <;> cases hop; rfl
    subst hc'
    rw [← hi.small ho hlen, hi.queued ho] at hc
    rcases List.mem_append.1 hc with hc | hc
    · obtain ⟨x, hx, hx2⟩ := List.mem_map.1 hc
      obtain ⟨m, hm⟩ := hi.msgs x hx
      rw [hx2, hp] at hm
      cases hm
    · exact hc
  · intro s e cs hc
    simp only [Session.cmdStep, hc, hp]

/-- A topic of 65528 bytes. -/
def longTopic : Str := List.replicate 65528 'x'

/-- The user subscribes to `a` and to the long topic, and connects. The publisher is there and takes everything; each
time the connection is made, it is lost when the session comes to the long topic, and made again. -/
example : after {} ([.call (.subscribe ['a']), .call (.subscribe longTopic), .iter ⟨[], [], none⟩, .iter ⟨[], [], none⟩,
      .call (.connect 5), .iter ⟨[], [], none⟩, .iter ⟨[5], [], conn []⟩] ++ List.replicate 5 (.session 0 eager) ++
      [.iter ⟨[5], [], none⟩, .iter ⟨[5], [], none⟩, .advance 100000000, .iter ⟨[5], [], none⟩, .iter ⟨[5], [], conn []⟩] ++
      List.replicate 5 (.session 1 eager))
    (fun d => decide (d.sessions.map (fun s => (s.over, s.sent.length)) = [(true, 1), (true, 1)]) && decide (d.topics.length = 2)) = true := by
  decide +kernel

end MsgRs.Props
