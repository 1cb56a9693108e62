import Verif.Proofs.PubServer
import Verif.Spec.PubServer
import Verif.Props.Admission
import Verif.Props.EndToEnd
/-!
# C91: the publisher as a whole — binding, admission, authentication, sessions
-/
namespace MsgRs.Props
open MsgRs Spec Pub
variable {A : Type}

/-! ## Where a session comes from -/

theorem act_ses (L : Lossy) (s : Server A) (a : SrvAct A) (i : Nat) (x : Ses A) (h : (s.act L a).ses[i]? = some x) :
    (∃ y, s.ses[i]? = some y ∧ x.since = y.since) ∨
    ((∃ e, a = .driver e) ∧ s.ses.length = i ∧ x.since = s.log.length ∧ ∃ b, s.sock.chan = some b) := by
  have hrec : ∀ m r, (s.record m r).ses = s.ses := by
    rintro m ⟨_ | _, _⟩ <;> rfl
  have old : (s.act L a).ses = s.ses → (∃ y, s.ses[i]? = some y ∧ x.since = y.since) := by
    intro he; rw [he] at h; exact ⟨x, h, rfl⟩
  cases a with
  | bind bind addrs =>
    left; apply old
    simp only [Server.act]
    split
    · rfl
    · split <;> rfl
  | publish t p => left; apply old; simp only [Server.act]; split; · rfl
                   · exact hrec _ _
  | tryPublish t p => left; apply old; simp only [Server.act]; split; · rfl
                      · exact hrec _ _
  | drop => left; apply old; simp only [Server.act]; split <;> rfl
  | session j e =>
    left
    simp only [Server.act] at h
    cases hx : s.ses[j]? with
    | none => simp only [hx] at h; exact ⟨x, h, rfl⟩
    | some z =>
      cases hc : s.sock.chan with
      | none => simp only [hx, hc] at h; exact ⟨x, h, rfl⟩
      | some b =>
        simp only [hx, hc] at h
        by_cases hj : i = j
        · subst hj
          have hlt := (List.getElem?_eq_some_iff.1 hx).1
          rw [List.getElem?_set_self hlt] at h
          cases h
          exact ⟨z, hx, rfl⟩
        · rw [List.getElem?_set_ne (fun h => hj h.symm)] at h
          exact ⟨x, h, rfl⟩
  | driver e =>
    simp only [Server.act] at h
    cases hd : s.drv with
    | none => simp only [hd] at h; exact .inl ⟨x, h, rfl⟩
    | some d =>
      cases hc : s.sock.chan with
      | none => simp only [hd, hc] at h; exact .inl ⟨x, h, rfl⟩
      | some b =>
        simp only [hd, hc] at h
        by_cases hlt : i < s.ses.length
        · rw [List.getElem?_append_left hlt] at h
          exact .inl ⟨x, h, rfl⟩
        · right
          rcases iter_sessions d e with hs | ⟨y, hs⟩
          · rw [hs] at h
            simp only [List.drop_length, List.map_nil, List.append_nil] at h
            have := (List.getElem?_eq_some_iff.1 h).1
            exact absurd this hlt
          · rw [hs] at h
            simp only [List.drop_left', List.map_cons, List.map_nil] at h
            have hi : i = s.ses.length := by
              have := (List.getElem?_eq_some_iff.1 h).1
              simp at this
              omega
            subst hi
            simp at h
            subst h
            exact ⟨⟨e, rfl⟩, rfl, rfl, b, rfl⟩

theorem run_ses (L : Lossy) (acts : List (SrvAct A)) : ∀ (s : Server A) (i : Nat) (x : Ses A), (s.run L acts).ses[i]? = some x →
    (∃ y, s.ses[i]? = some y ∧ x.since = y.since) ∨
    ∃ pre e post, acts = pre ++ .driver e :: post ∧ startedBy L s pre e i ∧ x.since = (s.run L pre).log.length ∧
      ∃ b, (s.run L pre).sock.chan = some b := by
  induction acts with
  | nil => intro s i x h; exact .inl ⟨x, h, rfl⟩
  | cons a acts ih =>
    intro s i x h
    rcases ih (s.act L a) i x h with ⟨y, hy, hxy⟩ | ⟨pre, e, post, h1, h2, h3, h4⟩
    · rcases act_ses L s a i y hy with ⟨z, hz, hyz⟩ | ⟨⟨e, rfl⟩, h2, h3, h4⟩
      · exact .inl ⟨z, hz, hxy.trans hyz⟩
      · exact .inr ⟨[], e, acts, rfl, ⟨h2, (List.getElem?_eq_some_iff.1 hy).1⟩, hxy.trans h3, h4⟩
    · exact .inr ⟨a :: pre, e, post, by rw [h1]; rfl, h2, h3, h4⟩

/-! ## What was published -/

/-- One action of a bound publisher: what becomes of its log. -/
theorem act_log (L : Lossy) (s : Server A) (a : SrvAct A) (hb : ∃ b, s.sock.chan = some b) (ht : s.sock.transport = none) :
    (∃ b, (s.act L a).sock.chan = some b) ∧ (s.act L a).sock.transport = none ∧
    (s.act L a).sock.minCompress = s.sock.minCompress ∧ (s.act L a).sock.comp = s.sock.comp ∧
    (s.dropped = true → (s.act L a).log = s.log ∧ (s.act L a).dropped = true) ∧
    (s.dropped = false → (s.act L a).log = s.log ++ ((pubCalls [a]).filterMap (PubCall.prepare s.sock.minCompress s.sock.comp)) ∧
      ((s.act L a).dropped = true ↔ a = .drop)) := by
  obtain ⟨b, hb⟩ := hb
  have hrec : ∀ m, let r := s.record (some m) (s.sock.broadcast m)
      (∃ b, r.sock.chan = some b) ∧ r.sock.transport = none ∧ r.sock.minCompress = s.sock.minCompress ∧ r.sock.comp = s.sock.comp ∧
      r.log = s.log ++ [m] ∧ r.dropped = s.dropped := by
    intro m
    simp only [Socket.broadcast, hb, Server.record]
    exact ⟨⟨_, rfl⟩, ht, by trivial, by trivial, by simp, by trivial⟩
  cases a with
  | bind bind addrs =>
    have : s.act L (.bind bind addrs) = s := by
      simp only [Server.act, Socket.tryBind, ht]
      split
      · rfl
      · split <;> rename_i heq
        · rfl
        · split at heq <;> cases heq
        · split at heq <;> cases heq
    rw [this]
    exact ⟨⟨b, hb⟩, ht, rfl, rfl, fun h => ⟨rfl, h⟩, fun h => ⟨by simp [pubCalls], by simp [h]⟩⟩
  | publish t p =>
    simp only [Server.act]
    cases hd : s.dropped with
    | true => exact ⟨⟨b, hb⟩, ht, rfl, rfl, fun _ => ⟨rfl, hd⟩, fun h => by simp at h⟩
    | false =>
      simp only [Bool.false_eq_true, if_false, false_implies, true_and, forall_const]
      unfold Socket.publish
      cases hm : publishPrepare s.sock.minCompress s.sock.comp t p with
      | none =>
        refine ⟨⟨b, hb⟩, ht, rfl, rfl, ?_, by simp [Server.record, hd]⟩
        simp [Server.record, pubCalls, PubCall.prepare, hm]
      | some m =>
        obtain ⟨r1, r2, r3, r4, r5, r6⟩ := hrec m
        refine ⟨r1, r2, r3, r4, ?_, by rw [r6, hd]; simp⟩
        rw [r5]
        simp [pubCalls, PubCall.prepare, hm]
  | tryPublish t p =>
    simp only [Server.act]
    cases hd : s.dropped with
    | true => exact ⟨⟨b, hb⟩, ht, rfl, rfl, fun _ => ⟨rfl, hd⟩, fun h => by simp at h⟩
    | false =>
      simp only [Bool.false_eq_true, if_false, false_implies, true_and, forall_const]
      unfold Socket.tryPublish
      cases hm : tryPublishPrepare s.sock.comp t p with
      | none =>
        refine ⟨⟨b, hb⟩, ht, rfl, rfl, ?_, by simp [Server.record, hd]⟩
        simp [Server.record, pubCalls, PubCall.prepare, hm]
      | some m =>
        obtain ⟨r1, r2, r3, r4, r5, r6⟩ := hrec m
        refine ⟨r1, r2, r3, r4, ?_, by rw [r6, hd]; simp⟩
        rw [r5]
        simp [pubCalls, PubCall.prepare, hm]
  | drop =>
    simp only [Server.act]
    split
    · rename_i hd
      exact ⟨⟨b, hb⟩, ht, rfl, rfl, fun _ => ⟨rfl, hd⟩, fun h => by rw [h] at hd; cases hd⟩
    · rename_i hd
      exact ⟨⟨b.close, by simp [hb]⟩, ht, rfl, rfl, fun h => absurd h hd, fun _ => ⟨by simp [pubCalls], by simp⟩⟩
  | session j e =>
    simp only [Server.act]
    split
    · exact ⟨⟨b, hb⟩, ht, rfl, rfl, fun h => ⟨rfl, h⟩, fun h => ⟨by simp [pubCalls], by simp [h]⟩⟩
    · exact ⟨⟨b, hb⟩, ht, rfl, rfl, fun h => ⟨rfl, h⟩, fun h => ⟨by simp [pubCalls], by simp [h]⟩⟩
  | driver e =>
    simp only [Server.act]
    split
    · exact ⟨⟨b, hb⟩, ht, rfl, rfl, fun h => ⟨rfl, h⟩, fun h => ⟨by simp [pubCalls], by simp [h]⟩⟩
    · exact ⟨⟨b, hb⟩, ht, rfl, rfl, fun h => ⟨rfl, h⟩, fun h => ⟨by simp [pubCalls], by simp [h]⟩⟩

theorem pubCalls_cons (a : SrvAct A) (acts : List (SrvAct A)) (h : a ≠ .drop) : pubCalls (a :: acts) = pubCalls [a] ++ pubCalls acts := by
  cases a <;> simp_all [pubCalls]

theorem run_log (L : Lossy) (acts : List (SrvAct A)) : ∀ (s : Server A), (∃ b, s.sock.chan = some b) → s.sock.transport = none →
    (s.run L acts).log = s.log ++ if s.dropped then [] else (pubCalls acts).filterMap (PubCall.prepare s.sock.minCompress s.sock.comp) := by
  induction acts with
  | nil => intro s _ _; simp [Server.run, pubCalls]
  | cons a acts ih =>
    intro s hb ht
    obtain ⟨g1, g2, g3, g4, g5, g6⟩ := act_log L s a hb ht
    have := ih (s.act L a) g1 g2
    have hrun : s.run L (a :: acts) = (s.act L a).run L acts := rfl
    rw [hrun, this, g3, g4]
    cases hd : s.dropped with
    | true =>
      obtain ⟨k1, k2⟩ := g5 hd
      rw [k1, k2]
      rfl
    | false =>
      obtain ⟨k1, k2⟩ := g6 hd
      by_cases ha : a = .drop
      · subst ha
        rw [k2.2 rfl, k1]
        simp [pubCalls]
      · have : (s.act L a).dropped = false := by
          cases hx : (s.act L a).dropped with
          | true => exact absurd (k2.1 hx) ha
          | false => rfl
        rw [this, k1, pubCalls_cons a acts ha]
        simp [List.filterMap_append]

theorem act_dropped (L : Lossy) (s : Server A) (a : SrvAct A) : (s.act L a).dropped = true ↔ s.dropped = true ∨ a = .drop := by
  have hrec : ∀ m r, (s.record m r).dropped = s.dropped := by
    rintro m ⟨_ | _, _⟩ <;> rfl
  cases a <;> simp only [Server.act, reduceCtorEq, or_false, or_true, iff_true]
  case bind => split
               · rfl
               · split <;> rfl
  case publish => split
                  · rfl
                  · rw [hrec]
  case tryPublish => split
                     · rfl
                     · rw [hrec]
  case driver => split <;> rfl
  case session => split <;> rfl
  case drop => split
               · assumption
               · rfl

theorem run_dropped (L : Lossy) (acts : List (SrvAct A)) : ∀ s : Server A, (s.run L acts).dropped = true ↔ s.dropped = true ∨ .drop ∈ acts := by
  induction acts with
  | nil => intro s; simp [Server.run]
  | cons a acts ih =>
    intro s
    have : s.run L (a :: acts) = (s.act L a).run L acts := rfl
    rw [this, ih, act_dropped, List.mem_cons, or_assoc, eq_comm (a := a)]

theorem pubCalls_append_drop (pre post : List (SrvAct A)) (h : .drop ∈ pre) : pubCalls (pre ++ post) = pubCalls pre := by
  induction pre with
  | nil => cases h
  | cons a pre ih => cases a <;> simp_all [pubCalls]

theorem pubCalls_append (pre post : List (SrvAct A)) (h : .drop ∉ pre) : pubCalls (pre ++ post) = pubCalls pre ++ pubCalls post := by
  induction pre with
  | nil => rfl
  | cons a pre ih => cases a <;> simp_all [pubCalls]

/-! ## C91 -/

/-- C91, admission: every session a publisher ever started serves a connection its listener reported. With an authenticator, the client on it sent — before anything the
session will read — a complete authentication message with an accepted token. Without, the session reads everything the client sends. -/
theorem C91_admitted_only (L : Lossy) (max : Option Nat) (authn : Option (Bytes → Bool)) (boundary minCompress bufferSize : Nat) (comp : Option Compressor)
    (acts : List (SrvAct A)) (i : Nat) (x : Ses A)
    (hx : ((Server.new max authn boundary minCompress bufferSize comp : Server A).run L acts).ses[i]? = some x) :
    (∃ e, .driver e ∈ acts ∧ e.accept = some x.conn) ∧
    (∀ f, authn = some f → ∃ id pre lost, f id = true ∧ x.conn.hs.reads = pre ++ x.input ∧ dataOf pre = Spec.authBytes id ++ lost) ∧
    (authn = none → x.input = x.conn.hs.reads) := by
  obtain ⟨hI, -, ha, -⟩ := run_inv' (L := L) (Q := fun e => .driver e ∈ acts) acts
    (new_srvInv L _ max authn boundary minCompress bufferSize comp) (fun _ h => h)
  cases hc : ((Server.new max authn boundary minCompress bufferSize comp : Server A).run L acts).sock.chan with
  | none =>
    rw [(hI.unbound hc).2.1] at hx
    simp at hx
  | some b =>
    obtain ⟨d, -, -, hB⟩ := hI.bound b hc
    obtain ⟨⟨e, h1, h2⟩, h3, -⟩ := hB.ses i x hx
    rw [ha] at h3
    refine ⟨⟨e, h1, h2⟩, ?_, ?_⟩
    · rintro f hf
      have hf' : (Server.new max authn boundary minCompress bufferSize comp : Server A).authn = some f := hf
      rw [hf'] at h3
      obtain ⟨id, wire, lost, h4⟩ := h3
      have := C30_handshake f x.conn.hs
      rw [h4] at this
      obtain ⟨k1, -, -, pre, k2, k3⟩ := this
      exact ⟨id, pre, lost, k1, k2, k3⟩
    · intro hn
      have hn' : (Server.new max authn boundary minCompress bufferSize comp : Server A).authn = none := hn
      rw [hn'] at h3
      exact h3

/-- What is known of a session of a publisher: it was started by one turn of the driver, and from then on the channel and the sessions went through a history of `Pub.Sys` in which the messages
published are those of the calls made after that turn. -/
theorem session_history' (L : Lossy) (max : Option Nat) (authn : Option (Bytes → Bool)) (boundary minCompress bufferSize : Nat) (comp : Option Compressor)
    (acts : List (SrvAct A)) (i : Nat) (x : Ses A)
    (hx : ((Server.new max authn boundary minCompress bufferSize comp : Server A).run L acts).ses[i]? = some x) :
    ∃ pre e post, acts = pre ++ .driver e :: post ∧
      startedBy L (Server.new max authn boundary minCompress bufferSize comp : Server A) pre e i ∧
      ∃ acts₁ acts₂ b, ((Server.new max authn boundary minCompress bufferSize comp : Server A).run L acts).sock.chan = some b ∧
        ((Sys.new bufferSize).run L acts₁).tasks i = none ∧
        (Sys.new bufferSize).run L (acts₁ ++ .connect i boundary x.input :: acts₂) =
          ((Server.new max authn boundary minCompress bufferSize comp : Server A).run L acts).sys b ∧
        published acts₁ ++ published acts₂ = ((Server.new max authn boundary minCompress bufferSize comp : Server A).run L acts).log ∧
        published acts₂ =
          (callsAfter pre (.driver e :: post)).filterMap (PubCall.prepare minCompress comp) := by
  rcases run_ses L acts _ i x hx with ⟨y, hy, -⟩ | ⟨pre, e, post, h1, h2, h3, h4⟩
  · simp [Server.new] at hy
  refine ⟨pre, e, post, h1, h2, ?_⟩
  obtain ⟨hI, -, ha, hbd, hbs, -, -⟩ := run_inv' (L := L) (Q := fun _ => True) acts
    (new_srvInv L _ max authn boundary minCompress bufferSize comp) (fun _ _ => trivial)
  obtain ⟨hI0, -, -, -, -, hmc, hco⟩ := run_inv' (L := L) (Q := fun _ => True) pre
    (new_srvInv L _ max authn boundary minCompress bufferSize comp) (fun _ _ => trivial)
  obtain ⟨b0, hb0⟩ := h4
  have ht0 : ((Server.new max authn boundary minCompress bufferSize comp : Server A).run L pre).sock.transport = none := by
    cases ht : ((Server.new max authn boundary minCompress bufferSize comp : Server A).run L pre).sock.transport with
    | none => rfl
    | some c =>
      have := hI0.fresh (by rw [ht]; simp)
      rw [hb0] at this
      cases this
  have hrun : (Server.new max authn boundary minCompress bufferSize comp : Server A).run L acts =
      ((Server.new max authn boundary minCompress bufferSize comp : Server A).run L pre).run L (.driver e :: post) := by
    rw [h1]; simp [Server.run, List.foldl_append]
  have hlog := run_log L (.driver e :: post) _ ⟨b0, hb0⟩ ht0
  rw [← hrun] at hlog
  cases hc : ((Server.new max authn boundary minCompress bufferSize comp : Server A).run L acts).sock.chan with
  | none =>
    rw [(hI.unbound hc).2.1] at hx
    simp at hx
  | some b =>
    obtain ⟨d, -, -, hB⟩ := hI.bound b hc
    obtain ⟨-, -, -, acts₁, acts₂, k1, k2, k3, k4⟩ := hB.ses i x hx
    rw [hbs] at k1 k2
    rw [hbd] at k2
    refine ⟨acts₁, acts₂, b, rfl, k1, ?_, by rw [k3, k4, List.take_append_drop], ?_⟩
    · have e1 : (Server.new max authn boundary minCompress bufferSize comp : Server A).sock.bufferSize = bufferSize := rfl
      have e2 : (Server.new max authn boundary minCompress bufferSize comp : Server A).boundary = boundary := rfl
      rw [e1, e2] at k2
      exact k2
    · rw [k4, h3, hlog, hmc, hco, List.drop_left']
      · unfold callsAfter
        have hd := run_dropped L pre (Server.new max authn boundary minCompress bufferSize comp : Server A)
        by_cases hm : SrvAct.drop ∈ pre
        · rw [if_pos (hd.2 (.inr hm)), pubCalls_append_drop _ _ hm]
          simp
        · rw [if_neg (fun h => (hd.1 h).elim (fun h => by cases h) hm), pubCalls_append _ _ hm]
          simp [pubCalls, Server.new, Socket.new]
      · rfl

theorem session_history (L : Lossy) (max : Option Nat) (authn : Option (Bytes → Bool)) (boundary minCompress bufferSize : Nat) (comp : Option Compressor)
    (acts : List (SrvAct A)) (i : Nat) (x : Ses A)
    (hx : ((Server.new max authn boundary minCompress bufferSize comp : Server A).run L acts).ses[i]? = some x) :
    ∃ pre e post, acts = pre ++ .driver e :: post ∧
      startedBy L (Server.new max authn boundary minCompress bufferSize comp : Server A) pre e i ∧
      ∃ acts₁ acts₂, ((Sys.new bufferSize).run L acts₁).tasks i = none ∧
        ((Sys.new bufferSize).run L (acts₁ ++ .connect i boundary x.input :: acts₂)).tasks i = some x.task ∧
        published acts₂ =
          (callsAfter pre (.driver e :: post)).filterMap (PubCall.prepare minCompress comp) := by
  obtain ⟨pre, e, post, h1, h2, acts₁, acts₂, b, -, h4, h5, -, h7⟩ := session_history' L max authn boundary minCompress bufferSize comp acts i x hx
  exact ⟨pre, e, post, h1, h2, acts₁, acts₂, h4, by rw [h5]; simp [Server.sys, hx], h7⟩

/-- C91, service: the `i`-th session of a publisher (started by the driver's turn between `pre` and `post`) takes from the application nothing but messages whose `publish` or `try_publish` was called after
the session was started and before the socket was dropped, and succeeded — in the order of the calls, each at most once, all of them up to some point as long as the session has not been told that it missed any; what it has
written to its connection and holds ready for it are the frames of those whose topic its client had subscribed at that moment, in order. -/
theorem C91_gets_published (L : Lossy) (max : Option Nat) (authn : Option (Bytes → Bool)) (boundary minCompress bufferSize : Nat) (comp : Option Compressor)
    (acts : List (SrvAct A)) (i : Nat) (x : Ses A)
    (hx : ((Server.new max authn boundary minCompress bufferSize comp : Server A).run L acts).ses[i]? = some x) :
    ∃ pre e post, acts = pre ++ .driver e :: post ∧
      startedBy L (Server.new max authn boundary minCompress bufferSize comp : Server A) pre e i ∧
      ∃ given, given = (callsAfter pre (.driver e :: post)).filterMap (PubCall.prepare minCompress comp) ∧
        (tookOf x.task.evs).Sublist given ∧
        (tookOf x.task.evs).length + missedOf x.task.evs ≤ given.length ∧
        (missedOf x.task.evs = 0 → tookOf x.task.evs <+: given) ∧
        sentOf x.task.evs ++ x.task.sess.pending.toList = due L [] 0 x.task.evs ∧
        x.task.sess.wr.wire ++ x.task.sess.wr.buf = (sentOf x.task.evs).flatMap PubSub.encode := by
  obtain ⟨pre, e, post, h1, h2, acts₁, acts₂, h3, h4, h5⟩ := session_history L max authn boundary minCompress bufferSize comp acts i x hx
  refine ⟨pre, e, post, h1, h2, _, rfl, ?_⟩
  rw [← h5]
  obtain ⟨t, g1, g2, g3, -, g5⟩ := C23_feed_subsequence L bufferSize acts₁ acts₂ i boundary x.input h3
  rw [h4] at g1
  cases g1
  obtain ⟨es, hes⟩ := sys_task_run h3 h4
  obtain ⟨k1, k2, -⟩ := C22_session_in_order L boundary x.input es _ _ hes
  exact ⟨g2, g3, g5, k1, k2⟩

/-- C91, end to end: the messages the user of a subscriber gets over a connection that the publisher serves with its `i`-th session were published (with that topic and payload) by calls made after the session was started and before the
socket was dropped, in the order of the calls and each at most once. -/
theorem C91_end_to_end [DecidableEq A] (L : Lossy) (D : Decompressors) (max : Option Nat) (authn : Option (Bytes → Bool)) (boundary minCompress bufferSize : Nat) (comp : Option Compressor)
    (hcomp : ∀ c, comp = some c → Spec.Inverts D c)
    (acts : List (SrvAct A)) (i : Nat) (x : Ses A)
    (hx : ((Server.new max authn boundary minCompress bufferSize comp : Server A).run L acts).ses[i]? = some x)
    (hsmall : ∀ c ∈ pubCalls acts, ∀ m, c.prepare minCompress comp = some m → m.payload.length < 2 ^ 32)
    (d : Sub.Driver A) (hd : Sub.Reach L D d) (u : Nat) (s : Sub.Session) (hs : d.sessions[u]? = some s)
    (hconn : Connected x.input x.task.sess s) :
    ∃ pre e post, acts = pre ++ .driver e :: post ∧
      startedBy L (Server.new max authn boundary minCompress bufferSize comp : Server A) pre e i ∧
      ((Sub.ofConn u (d.received ++ d.inbox)).map fun m => (m.topic, m.payload)).Sublist
        ((callsAfter pre (.driver e :: post)).map fun c => (c.topic, c.payload)) := by
  obtain ⟨pre, e, post, h1, h2, acts₁, acts₂, h3, h4, h5⟩ := session_history L max authn boundary minCompress bufferSize comp acts i x hx
  refine ⟨pre, e, post, h1, h2, ?_⟩
  have key : ∀ calls : List PubCall, published acts₂ = calls.filterMap (PubCall.prepare minCompress comp) → (∀ c ∈ calls, c ∈ pubCalls acts) →
      ((Sub.ofConn u (d.received ++ d.inbox)).map fun m => (m.topic, m.payload)).Sublist (calls.map fun c => (c.topic, c.payload)) := by
    intro calls hp hmem
    have := C61_published_in_order L D bufferSize acts₁ acts₂ i boundary x.input x.task h3 h4 minCompress comp hcomp
      (calls.filter fun c => (c.prepare minCompress comp).isSome) ?_ ?_ d hd u s hs hconn
    · exact this.trans ((List.filter_sublist).map _)
    · rw [hp]
      clear hp hmem
      induction calls with
      | nil => rfl
      | cons c calls ih =>
        cases hc : c.prepare minCompress comp with
        | none => simp [hc, ih]
        | some m => simp [hc, ih]
    · intro m hm
      rw [hp] at hm
      obtain ⟨c, hc1, hc2⟩ := List.mem_filterMap.1 hm
      exact hsmall c (hmem c hc1) m hc2
  refine key _ h5 (fun c hc => ?_)
  rw [h1]
  exact List.mem_of_mem_drop hc

/-- C91, the limit: with `max_clients = n`, at no point of any history do more than `n` connections occupy the publisher: being accepted, being authenticated, or served by a session that is not over. -/
theorem C91_limit (L : Lossy) (n : Nat) (authn : Option (Bytes → Bool)) (boundary minCompress bufferSize : Nat) (comp : Option Compressor) (acts : List (SrvAct A)) (d : Driver A)
    (hd : ((Server.new (some n) authn boundary minCompress bufferSize comp : Server A).run L acts).drv = some d) :
    d.connTasks.length + d.authTasks.length +
      (running ((Server.new (some n) authn boundary minCompress bufferSize comp : Server A).run L acts).ses).length ≤ n := by
  obtain ⟨hI, hm, ha, -⟩ := run_inv' (L := L) (Q := fun _ => True) acts
    (new_srvInv L _ (some n) authn boundary minCompress bufferSize comp) (fun _ _ => trivial)
  cases hc : ((Server.new (some n) authn boundary minCompress bufferSize comp : Server A).run L acts).sock.chan with
  | none => rw [(hI.unbound hc).1] at hd; cases hd
  | some b =>
    obtain ⟨d', h1, -, hB⟩ := hI.bound b hc
    rw [hd] at h1
    cases h1
    obtain ⟨dacts, h2, -⟩ := hB.drv
    have := C27_publisher_max_clients n authn dacts
    rw [hm, ha] at h2
    have h2' : ({ max := some n, authn } : Driver A).run dacts = d := h2
    rw [h2'] at this
    simp only at this
    rw [hB.same, List.length_map] at this
    exact this

theorem mem_listenerReports {acts : List (SrvAct A)} {e : DEnv A} {c : Conn A} (he : .driver e ∈ acts) (hc : e.accept = some c) : c ∈ listenerReports acts := by
  induction acts with
  | nil => cases he
  | cons a acts ih =>
    rcases List.mem_cons.1 he with rfl | he'
    · simp [listenerReports, hc]
    · have := ih he'
      cases a <;> simp only [listenerReports, List.mem_append]
      case driver => exact .inr this
      all_goals exact this

/-- C91, the counter: the publisher's statistic counts at least the connections that occupy it, and exactly these as long as no client it accepted makes its authentication task panic. -/
theorem C91_counter (L : Lossy) (max : Option Nat) (authn : Option (Bytes → Bool)) (boundary minCompress bufferSize : Nat) (comp : Option Compressor) (acts : List (SrvAct A)) (d : Driver A)
    (hd : ((Server.new max authn boundary minCompress bufferSize comp : Server A).run L acts).drv = some d) :
    let clients := d.connTasks.length + d.authTasks.length +
      (running ((Server.new max authn boundary minCompress bufferSize comp : Server A).run L acts).ses).length
    clients ≤ d.active ∧
    ((∀ c ∈ listenerReports acts, ∀ f, authn = some f → hsServer f c.hs ≠ .panicked) → d.active = clients) := by
  obtain ⟨hI, hm, ha, -⟩ := run_inv' (L := L) (Q := fun e => .driver e ∈ acts) acts
    (new_srvInv L _ max authn boundary minCompress bufferSize comp) (fun _ h => h)
  cases hc : ((Server.new max authn boundary minCompress bufferSize comp : Server A).run L acts).sock.chan with
  | none => rw [(hI.unbound hc).1] at hd; cases hd
  | some b =>
    obtain ⟨d', h1, -, hB⟩ := hI.bound b hc
    rw [hd] at h1
    cases h1
    obtain ⟨dacts, h2, h3⟩ := hB.drv
    have := C29_counter_exact_partial max authn dacts
    rw [hm, ha] at h2
    have h2' : ({ max, authn } : Driver A).run dacts = d := h2
    rw [h2'] at this
    simp only at this
    rw [hB.same, List.length_map] at this
    refine ⟨this.1, fun hp => this.2 fun e he f c hf hac => ?_⟩
    exact hp c (mem_listenerReports (h3 e he) hac) f hf

/-! ### One session for each arrival -/

theorem iter_count (p : Conn A → Bool) (d : Driver A) (e : DEnv A) :
    (d.iter e).connTasks.countP p + (d.iter e).authTasks.countP p + ((d.iter e).sessions.map (·.1)).countP p ≤
      d.connTasks.countP p + d.authTasks.countP p + (d.sessions.map (·.1)).countP p + e.accept.toList.countP p := by
  have er : ∀ (l : List (Conn A)) (i : Nat) (c : Conn A), l[i]? = some c → (l.eraseIdx i).countP p + (if p c then 1 else 0) = l.countP p := by
    intro l
    induction l with
    | nil => intro i c h; simp at h
    | cons a l ih =>
      intro i c h
      cases i with
      | zero => simp at h; subst h; simp [List.countP_cons]
      | succ i => simp at h; have := ih i c h; simp [List.countP_cons]; omega
  let N := fun d : Driver A => d.connTasks.countP p + d.authTasks.countP p + (d.sessions.map (·.1)).countP p
  have h1 : N (d.stepJoin e).1 ≤ N d := by
    unfold Driver.stepJoin
    split
    · split
      · exact Nat.le_refl _
      · rename_i i f _ _ c hc
        have := er _ _ _ hc
        simp only
        split <;> simp only [N, List.map_append, List.countP_append, List.map_cons, List.map_nil, List.countP_cons, List.countP_nil] <;> omega
    · exact Nat.le_refl _
  have h2 : ∀ d : Driver A, N (d.stepConn e).1 ≤ N d := by
    intro d
    unfold Driver.stepConn
    split
    · exact Nat.le_refl _
    · split
      · exact Nat.le_refl _
      · rename_i i ok _ _ c hc
        have := er _ _ _ hc
        simp only
        split
        · unfold Driver.onIncoming
          split
          · rename_i heq
            split at heq
            · cases heq
            · split at heq <;> (cases heq; simp only [N, List.map_append, List.countP_append, List.map_cons, List.map_nil, List.countP_cons, List.countP_nil]; omega)
          · rename_i heq
            split at heq
            · cases heq; simp only [N]; omega
            · split at heq <;> cases heq
        · simp only [N]; omega
  have h3 : ∀ d : Driver A, N (d.stepAccept e).1 ≤ N d + e.accept.toList.countP p := by
    intro d
    unfold Driver.stepAccept
    split
    · simp
    · rename_i c hc
      rw [hc]
      split
      · split <;> simp only [N, List.countP_append, Option.toList] <;> omega
      · simp only [N, List.countP_append, Option.toList]; omega
  show N (d.iter e) ≤ N d + _
  unfold Driver.iter
  rcases hj : d.stepJoin e with ⟨d1, b1⟩
  rw [hj] at h1
  cases b1 with
  | true => simp only at h1 ⊢; omega
  | false =>
    simp only at h1 ⊢
    have g := h2 d1
    rcases hk : d1.stepConn e with ⟨d2, b2⟩
    rw [hk] at g
    cases b2 with
    | true => simp only at g ⊢; omega
    | false => simp only at g ⊢; have := h3 d2; omega

/-- The connections a publisher has ever kept: being accepted, being authenticated, given to a session. -/
def kept (s : Server A) : List (Conn A) :=
  (match s.drv with | some d => d.connTasks ++ d.authTasks | none => []) ++ s.ses.map (·.conn)

theorem act_kept (L : Lossy) (p : Conn A → Bool) (s : Server A) (a : SrvAct A) (hf : s.sock.transport ≠ none → s.drv = none) :
    (kept (s.act L a)).countP p ≤ (kept s).countP p + (listenerReports [a]).countP p := by
  have hrec : ∀ m r, kept (s.record m r) = kept s := by
    rintro m ⟨_ | _, _⟩ <;> rfl
  have same : kept (s.act L a) = kept s → (kept (s.act L a)).countP p ≤ (kept s).countP p + (listenerReports [a]).countP p := by
    intro h; rw [h]; omega
  cases a with
  | bind bind addrs =>
    apply same
    simp only [Server.act]
    split
    · rfl
    · unfold Socket.tryBind
      cases ht : s.sock.transport with
      | none =>
        split <;> rename_i heq
        · rfl
        · split at heq <;> cases heq
        · split at heq <;> cases heq
      | some c =>
        have := hf (by rw [ht]; simp)
        split
        · rfl
        · simp only [kept, this]; rfl
        · rfl
  | publish => apply same; simp only [Server.act]; split; · rfl
               · exact hrec _ _
  | tryPublish => apply same; simp only [Server.act]; split; · rfl
                  · exact hrec _ _
  | drop => apply same; simp only [Server.act]; split <;> rfl
  | session i e =>
    apply same
    simp only [Server.act]
    split
    · rename_i x b hx hc
      have hm : ∀ y : Ses A, y.conn = x.conn → (s.ses.set i y).map (·.conn) = s.ses.map (·.conn) := by
        intro y hy
        rw [List.map_set, hy]
        apply List.ext_getElem?
        intro j
        by_cases hj : j = i
        · subst hj
          have hlt := (List.getElem?_eq_some_iff.1 hx).1
          rw [List.getElem?_set_self (by simpa using hlt)]
          simp [hx]
        · rw [List.getElem?_set_ne (fun h => hj h.symm)]
      simp only [kept]
      rw [hm { x with task := x.task.step L b e } rfl]
      congr 1
      by_cases ho : ((x.task.step L b e).over && !x.task.over) = true
      · rw [if_pos ho]
        cases s.drv with
        | none => rfl
        | some d =>
          simp only [Option.map_some, Driver.act]
          cases d.sessions[(running (s.ses.take i)).length]? <;> rfl
      · rw [if_neg ho]
    · rfl
  | driver e =>
    simp only [Server.act, listenerReports, List.append_nil]
    cases hd : s.drv with
    | none => simp only [kept, hd]; omega
    | some d =>
      cases hc : s.sock.chan with
      | none => simp only [kept, hd]; omega
      | some b =>
        simp only [kept, hd, List.countP_append, List.map_append, List.map_map]
        have h1 := iter_count p d e
        rcases iter_sessions d e with hs | ⟨y, hs⟩
        · rw [hs] at h1 ⊢
          simp only [List.drop_length, List.map_nil, List.countP_nil]
          omega
        · rw [hs] at h1 ⊢
          simp only [List.drop_left', List.map_cons, List.map_nil, List.countP_cons, List.countP_nil, List.map_append, List.countP_append, Function.comp] at h1 ⊢
          omega

/-- C91, one session each: whatever class of connections one looks at, the publisher has never kept more of them — waiting, being authenticated, or given to a session — than its listener reported: no connection
is served twice, none is made up. -/
theorem C91_one_session_each (L : Lossy) (max : Option Nat) (authn : Option (Bytes → Bool)) (boundary minCompress bufferSize : Nat) (comp : Option Compressor)
    (acts : List (SrvAct A)) (p : Conn A → Bool) :
    ((((Server.new max authn boundary minCompress bufferSize comp : Server A).run L acts).ses).map (·.conn)).countP p ≤ (listenerReports acts).countP p := by
  have key : ∀ (acts : List (SrvAct A)) (s : Server A), SrvInv L (fun _ => True) s → (kept (s.run L acts)).countP p ≤ (kept s).countP p + (listenerReports acts).countP p := by
    intro acts
    induction acts with
    | nil => intro s _; simp [Server.run, listenerReports]
    | cons a acts ih =>
      intro s hI
      have h1 := act_kept L p s a (fun ht => (hI.unbound (hI.fresh ht)).1)
      have h2 := ih _ (act_inv hI a (fun _ _ => trivial)).1
      have h3 : listenerReports (a :: acts) = listenerReports [a] ++ listenerReports acts := by cases a <;> simp [listenerReports]
      have h4 : s.run L (a :: acts) = (s.act L a).run L acts := rfl
      rw [h3, h4, List.countP_append]
      omega
  have := key acts _ (new_srvInv L _ max authn boundary minCompress bufferSize comp)
  simp only [kept, List.countP_append] at this
  simp only [Server.new, List.map_nil, List.countP_nil] at this ⊢
  omega

/-- A publisher with an authenticator and room for two: the first client is admitted with its token, the second is
turned down for its token, one message is published before anybody is there and two after; the first client had subscribed to the topic of one of them. -/
example :
    let sub : PubSub.Message := ⟨⟨0, 9, PubSub.subPrefix ++ [0x61], 1, 0, 0⟩, []⟩
    let conn : Nat → UInt8 → Conn Nat := fun u t =>
      ⟨u, some u, ⟨[.data (Spec.authBytes [t]), .data (PubSub.encode sub), .pending], [.ok 2, .ok 1], [.ok 1], [.ok 1]⟩⟩
    let env := fun now => ({ tick := true, flushAns := [.ok 100, .ok 1], readyAns := [], closeAns := [], feed := .pending, now } : Env)
    let s := (Server.new (some 2) (some (· == [7])) 8192 1024 4 none : Server Nat).run Lossy.strict
      [.bind some [80], .publish ['a'] [0], .driver ⟨none, none, some (conn 1 7)⟩, .driver ⟨none, none, some (conn 2 8)⟩,
        .driver ⟨none, some (0, true), none⟩, .driver ⟨none, some (0, true), none⟩, .driver ⟨some 0, none, none⟩,
        .driver ⟨some 0, none, none⟩, .session 0 (env 5), .publish ['b'] [1], .publish ['a'] [1, 2],
        .session 0 (env 7), .session 0 (env 7), .session 0 (env 8), .session 0 (env 8)]
    s.ses.map (·.conn) = [conn 1 7] ∧ s.ses.map (fun x => tookOf x.task.evs) = [[⟨.none, ['b'], [1]⟩, ⟨.none, ['a'], [1, 2]⟩]] ∧
      s.ses.map (·.task.sess.wr.wire) = [PubSub.encode ⟨⟨0, 1, [0x61], 7, 0, 2⟩, [1, 2]⟩] ∧ s.drv.map (·.active) = some 1 := by
  decide +kernel

end MsgRs.Props
