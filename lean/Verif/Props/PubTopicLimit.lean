import Verif.Proofs.PubStay
import Verif.Props.PubDrop
/-!
# C89: publishing does not end sessions
-/
namespace MsgRs.Props
open MsgRs Pub Spec

/-- C89 (partial): the socket is not dropped, and every topic published has at most 65535 bytes. A client connects at some time; its connection stays open, and what it sends
is, read in whatever pieces, the beginning of a sequence of proper frames. Then its session is running at any later time, whatever was published (by anyone, in whatever
order, however many messages, before or after it connected), whatever other clients did, however slow the connection is, and whatever errors writing to it gave.
Missing: a longer topic ends the session (`C89_long_topic_refuted`). -/
theorem C89_stays_connected_partial (L : Lossy) (n : Nat) (acts₁ acts₂ : List Act) (i boundary : Nat) (input : List ReadAns)
    (hfresh : ∀ b inp, .connect i b inp ∉ acts₁) (hdrop : .drop ∉ acts₁ ++ acts₂)
    (hshort : ∀ m, .publish m ∈ acts₁ ++ acts₂ → (utf8 m.topic).length ≤ 65535)
    (hopen : OpenAns input) (ms : List PubSub.Message) (hms : ∀ m ∈ ms, m.WF) (hin : dataOf input <+: ms.flatMap PubSub.encode) :
    ∃ t, ((Sys.new n).run L (acts₁ ++ .connect i boundary input :: acts₂)).tasks i = some t ∧ t.over = false := by
  have none_run : ∀ (l : List Act) (s : Sys), s.tasks i = none → (∀ b inp, .connect i b inp ∉ l) → (s.run L l).tasks i = none := by
    intro l
    induction l with
    | nil => exact fun s h _ => h
    | cons a l ih =>
      intro s h hf
      refine ih (s.act L a) ?_ (fun b inp hx => hf b inp (List.mem_cons_of_mem _ hx))
      cases a with
      | publish m => exact h
      | drop => exact h
      | connect j bd inp =>
        simp only [Sys.act]
        split
        · exact h
        · simp only
          rw [if_neg]
          · exact h
          · intro hij; subst hij; exact hf bd inp (by simp)
      | step j e =>
        simp only [Sys.act]
        split
        · rename_i hij; subst hij; rw [h]; rfl
        · exact h
  have hnone := none_run acts₁ (Sys.new n) rfl hfresh
  have h1 := sinv_run (L := L) acts₁ (sinv_new L n)
  rw [List.nil_append] at h1
  have open_run : ∀ (l : List Act) (s : Sys), s.chan.closed = false → .drop ∉ l → (s.run L l).chan.closed = false := by
    intro l
    induction l with
    | nil => exact fun s h _ => h
    | cons a l ih =>
      intro s h hf
      exact ih (s.act L a) (act_open h (fun hx => hf (by simp [hx]))) (fun hx => hf (List.mem_cons_of_mem _ hx))
  have hc := open_run acts₁ (Sys.new n) rfl (fun hx => hdrop (by simp [hx]))
  have h2 := sinv_act (L := L) h1 (.connect i boundary input)
  have hpub : published [Act.connect i boundary input] = [] := rfl
  rw [hpub, List.append_nil] at h2
  have hmem : ∀ m ∈ published acts₁ ++ published acts₂, (utf8 m.topic).length ≤ 65535 := by
    intro m hx
    rw [← published_append] at hx
    refine hshort m ?_
    simp only [published, List.mem_filterMap] at hx
    obtain ⟨a, ha, hax⟩ := hx
    cases a <;> cases hax
    exact ha
  have ht0 : (((Sys.new n).run L acts₁).act L (.connect i boundary input)).tasks i =
      some { next := ((Sys.new n).run L acts₁).chan.resubscribe, sess := Session.new boundary input } := by
    simp [Sys.act, hnone]
  obtain ⟨y, hy⟩ := hin
  have hall := drains_encoded PubSub.codec PubSub.encode PubSub.decode_nil PubSub.Message.WF (fun m x hm => PubSub.decode_encode m x hm) ms hms
  obtain ⟨ms', hd⟩ := drains_prefix PubSub.inc hall rfl (dataOf input) y hy.symm
  obtain ⟨t', k1, k2⟩ := healthy_run (L := L) acts₂ h2 (act_open hc (by simp)) hmem (fun hx => hdrop (by simp [hx])) ht0
    (healthy_new hopen hd)
  exact ⟨t', by simpa [Sys.run, List.foldl_append] using k1, k2.over⟩

/-- C89 (refuted as stated), in general: publishing to a topic of more than 65535 bytes is accepted like anything else, and ends every session that comes to that
message while a pattern that covers the topic is subscribed: the session that polls the channel next, with nothing left to send, is over. -/
theorem C89_long_topic_refuted (m : PubMsg) (hlong : 65535 < (utf8 m.topic).length) :
    (∀ (A : Type) (s : Pub.Socket A) (b : Bcast PubMsg), s.chan = some b → (s.broadcast m).1 = .ok ()) ∧
    (∀ (L : Lossy) (b : Bcast PubMsg) (t : Task) (e : Env), feedOf b t.next = .msg m → Trie.contains t.sess.filter m.topic = true →
      t.sess.pending = none → t.sess.wr.buf.length < t.sess.wr.boundary →
      t.step L b e = { t with over := true }) := by
  refine ⟨?_, ?_⟩
  · intro A s b hb
    simp [Pub.Socket.broadcast, hb]
  · intro L b t e hf hc hp hw
    unfold Task.step
    split
    · rename_i ho; rw [← ho]
    · obtain ⟨w, f, hfs, hwl, hwb⟩ : ∃ w f, t.sess.flushStep { e with feed := feedOf b t.next } = { t.sess with wr := w, shouldFlush := f } ∧
          w.buf.length ≤ t.sess.wr.buf.length ∧ w.boundary = t.sess.wr.boundary := by
        unfold Session.flushStep
        split
        · have hs := Writer.flush_spec t.sess.wr e.flushAns
          rcases hq : t.sess.wr.flush e.flushAns with ⟨o, w⟩
          rw [hq] at hs
          have hlen : w.buf.length ≤ t.sess.wr.buf.length := by
            have h1 := congrArg List.length hs.1
            have h2 := hs.2.2.1.length_le
            simp only [Writer.total, List.length_append] at h1
            simp only at h2
            omega
          cases o with
          | ok => exact ⟨w, false, rfl, hlen, hs.2.1⟩
          | pending => exact ⟨w, t.sess.shouldFlush, rfl, hlen, hs.2.1⟩
          | err => exact ⟨w, t.sess.shouldFlush, rfl, hlen, hs.2.1⟩
        · exact ⟨t.sess.wr, t.sess.shouldFlush, rfl, Nat.le_refl _, rfl⟩
      have hrd : w.ready e.readyAns = (.ok, w) := by
        unfold Writer.ready
        rw [if_neg (by omega)]
      have : t.sess.iter L { e with feed := feedOf b t.next } = .panic := by
        unfold Session.iter
        simp only [hfs, hrd]
        simp only [hp, hf, Session.onOutgoing, hc, if_true, PubMsg.intoWire, PubSub.Message.new]
        rw [if_neg (by omega)]
        rfl
      rw [this]

/-- A subscription to everything of one level, `*`. -/
def subStarMsg : PubSub.Message := ⟨⟨0, 9, PubSub.subPrefix ++ [0x2A], 0, 0, 0⟩, []⟩
def subStar : Bytes := PubSub.encode subStarMsg
/-- The connection takes what it is given. -/
def takesAll : Env := ⟨true, [.ok 1000, .ok 1], [.ok 1000, .ok 1], [.ok 1000, .ok 1], .pending, 7⟩
/-- A client subscribes to `*` (its subscription arrives in two pieces) and gets a first message. -/
def untilFirst : List Act := [.connect 0 100 [.data (subStar.take 5), .data (subStar.drop 5), .pending],
  .step 0 takesAll, .step 0 takesAll, .publish ⟨.none, ['a'], [1]⟩, .step 0 takesAll, .step 0 takesAll]

theorem splitDots_plain (s : Str) (h : '.' ∉ s) : splitDots s = [s] := by
  induction s with
  | nil => rfl
  | cons c cs ih =>
    simp only [List.mem_cons, not_or] at h
    rw [splitDots, if_neg (fun hx => h.1 hx.symm), ih h.2]

/-- The witness, from the start: after that, something is published to any topic of one level with more than 65535 bytes, and then to a short one. The session ends and the
message published last never gets to this client, whatever happens later. -/
theorem C89_client_lost_refuted (x : Str) (hx : '.' ∉ x) (hstar : x ≠ ['*']) (hlong : 65535 < (utf8 x).length) (post : List Act) :
    ∃ t, ((Sys.new 4).run Lossy.strict (untilFirst ++ [.publish ⟨.none, x, [2]⟩, .publish ⟨.none, ['a'], [3]⟩, .step 0 takesAll] ++ post)).tasks 0 = some t ∧
      t.over = true ∧ (sentOf t.evs).map (·.payload) = [[1]] := by
  obtain ⟨t, ht, h1, h2, h3, h4, h5, h6⟩ : ∃ t, ((Sys.new 4).run Lossy.strict untilFirst).tasks 0 = some t ∧ t.over = false ∧
      (sentOf t.evs).map (·.payload) = [[1]] ∧ t.next = 1 ∧ t.sess.pending = none ∧ t.sess.wr.buf.length < t.sess.wr.boundary ∧
      t.sess.filter = .mk [(['*'], .mk [] false true)] false false := by
    refine ⟨_, rfl, by decide +kernel, by decide +kernel, by decide +kernel, by decide +kernel, by decide +kernel, rfl⟩
  have hs := sinv_run (L := Lossy.strict) (untilFirst ++ [.publish ⟨.none, x, [2]⟩, .publish ⟨.none, ['a'], [3]⟩]) (sinv_new Lossy.strict 4)
  have hrun : ∀ l : List Act, (Sys.new 4).run Lossy.strict (untilFirst ++ l) = ((Sys.new 4).run Lossy.strict untilFirst).run Lossy.strict l := by
    intro l; simp [Sys.run, List.foldl_append]
  rw [hrun] at hs
  generalize hs0 : (Sys.new 4).run Lossy.strict untilFirst = s0 at *
  have hfeed : feedOf (s0.run Lossy.strict [.publish ⟨.none, x, [2]⟩, .publish ⟨.none, ['a'], [3]⟩]).chan t.next = .msg ⟨.none, x, [2]⟩ := by
    have hlog : published (untilFirst ++ [.publish ⟨.none, x, [2]⟩, .publish ⟨.none, ['a'], [3]⟩]) = [⟨.none, ['a'], [1]⟩, ⟨.none, x, [2]⟩, ⟨.none, ['a'], [3]⟩] := rfl
    rw [hlog, List.nil_append] at hs
    have hcap : (s0.run Lossy.strict [.publish ⟨.none, x, [2]⟩, .publish ⟨.none, ['a'], [3]⟩]).chan.slots.length = 4 := hs.cap
    have hr := Bcast.recv_eq hs.chan (next := t.next) (by rw [hs.chan.tail, h3]; simp)
    rw [h3] at hr ⊢
    rw [dif_pos (by simp)] at hr
    rw [if_pos (by rw [hcap]; simp)] at hr
    simp only [feedOf, hr]
    rfl
  have hmatch : Trie.contains t.sess.filter x = true := by
    rw [h6, Trie.contains, splitDots_plain x hx]
    simp [Trie.containsAt, Trie.getChild, Trie.Node.children, Trie.STAR, Ne.symm hstar, Trie.Node.topicEnd]
  have hover := (C89_long_topic_refuted ⟨.none, x, [2]⟩ hlong).2 Lossy.strict _ t takesAll hfeed hmatch h4 h5
  refine ⟨{ t with over := true }, ?_, rfl, h2⟩
  rw [List.append_assoc, hrun]
  have h7 : ∀ l : List Act, s0.run Lossy.strict ([.publish ⟨.none, x, [2]⟩, .publish ⟨.none, ['a'], [3]⟩, .step 0 takesAll] ++ l) =
      (s0.run Lossy.strict [.publish ⟨.none, x, [2]⟩, .publish ⟨.none, ['a'], [3]⟩, .step 0 takesAll]).run Lossy.strict l := by
    intro l; simp [Sys.run, List.foldl_append]
  rw [h7]
  refine over_stays Lossy.strict post 0 _ _ ?_ rfl
  rw [← hover]
  simp [Sys.act, Sys.run, ht]

/-- There are such topics. -/
example : ∃ x : Str, '.' ∉ x ∧ x ≠ ['*'] ∧ 65535 < (utf8 x).length := by
  have h : ∀ n, '.' ∉ List.replicate n 'x' ∧ (n = 65536 → List.replicate n 'x' ≠ ['*']) := fun n => by
    constructor
    · intro hm; have := (List.mem_replicate.1 hm).2; revert this; decide
    · intro hn hm; have := congrArg List.length hm; simp at this; omega
  exact ⟨List.replicate 65536 'x', (h 65536).1, (h 65536).2 rfl, by decide +kernel⟩

/-- The hypotheses of `C89_stays_connected_partial` are met: a client whose second subscription has arrived in part. -/
example :
    let input : List ReadAns := [.data (subStar.take 5), .pending, .data (subStar.drop 5 ++ subStar.take 7), .pending]
    OpenAns input ∧ (∀ m ∈ [subStarMsg, subStarMsg], m.WF) ∧ dataOf input <+: [subStarMsg, subStarMsg].flatMap PubSub.encode ∧
    ∃ t, ((Sys.new 4).run Lossy.strict ([.connect 0 100 input, .step 0 takesAll, .step 0 takesAll, .step 0 takesAll,
        .publish ⟨.none, ['a', 'b'], [2]⟩] ++ List.replicate 3 (.step 0 takesAll))).tasks 0 = some t ∧
      t.over = false ∧ (sentOf t.evs).map (·.payload) = [[2]] := by
  refine ⟨by unfold OpenAns; decide +kernel, ?_, ⟨subStar.drop 7, by decide +kernel⟩, _, rfl, by decide +kernel, by decide +kernel⟩
  intro m hm
  have : m = subStarMsg := by simpa using hm
  subst this
  exact ⟨by decide, by decide⟩

end MsgRs.Props
