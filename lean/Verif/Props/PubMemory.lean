import Verif.Proofs.PubMemory
import Verif.Props.E2ERoom
/-!
# C102: a slow subscriber costs the publisher a bounded amount of memory
-/
namespace MsgRs.Props
open MsgRs Spec Pub
variable {A : Type}

/-! ## Sessions -/

theorem run_sesMem (L : Lossy) (max : Option Nat) (authn : Option (Bytes → Bool)) (boundary minCompress bufferSize : Nat) (comp : Option Compressor) (i : Nat) (fine : Bool) (F C : Nat)
    (acts : List (SrvAct A)) (hfine : fine = true → ∀ e, .session i e ∈ acts → writesFine e.readyAns) :
    ∀ x, ((Server.new max authn boundary minCompress bufferSize comp : Server A).run L acts).ses[i]? = some x → chunksUpTo C x.input →
      SesMem fine boundary F (2 ^ 32 - 2) C x.task := by
  suffices h : ∀ acts : List (SrvAct A), (fine = true → ∀ e, .session i e ∈ acts → writesFine e.readyAns) →
      ∀ j x, ((Server.new max authn boundary minCompress bufferSize comp : Server A).run L acts).ses[j]? = some x →
        j = i → chunksUpTo C x.input → SesMem fine boundary F (2 ^ 32 - 2) C x.task from fun x hx => h acts hfine i x hx rfl
  intro acts
  suffices h : ∀ (n : Nat) (acts : List (SrvAct A)), acts.length = n → (fine = true → ∀ e, .session i e ∈ acts → writesFine e.readyAns) →
      ∀ j x, ((Server.new max authn boundary minCompress bufferSize comp : Server A).run L acts).ses[j]? = some x →
        j = i → chunksUpTo C x.input → SesMem fine boundary F (2 ^ 32 - 2) C x.task from h _ acts rfl
  intro n
  induction n with
  | zero =>
    intro acts hl _ j x hx
    have : acts = [] := List.length_eq_zero_iff.mp hl
    subst this
    simp [Server.run, Server.new] at hx
  | succ n ih =>
    intro acts hl hf
    rcases List.eq_nil_or_concat acts with rfl | ⟨pre, a, rfl⟩
    · simp at hl
    rw [List.concat_eq_append] at hl hf ⊢
    rw [run_snoc]
    have hpre := ih pre (by simpa using hl) fun h e he => hf h e (List.mem_append_left _ he)
    obtain ⟨-, -, -, hbd, -⟩ := run_inv' (L := L) (Q := fun _ => True) pre
      (new_srvInv L _ max authn boundary minCompress bufferSize comp) (fun _ _ => trivial)
    refine act_tasks (fun j x => j = i → chunksUpTo C x.input → SesMem fine boundary F (2 ^ 32 - 2) C x.task) a ?_ ?_ hpre
    · intro e d b x j _ _ _ _ _ hc
      rw [hbd]
      exact sesMem_new hc
    · intro j e x b ha _ _ hP hj hc
      exact step_mem pubsub_needs (hP hj hc) fun h => hf h e (List.mem_append_right _ (by rw [ha, hj]; simp))

/-- C102, one subscriber: whatever the history of a publisher — however much is published, however slowly or rarely the client of its `i`-th session reads — that session never holds more for its client
than `backpressure_boundary - 1` bytes and one frame, as long as no write to its connection fails. (`F`: a bound on the frames of the messages published.) -/
theorem C102_slow_subscriber (L : Lossy) (max : Option Nat) (authn : Option (Bytes → Bool)) (boundary minCompress bufferSize : Nat) (comp : Option Compressor)
    (acts : List (SrvAct A)) (i : Nat) (x : Ses A)
    (hx : ((Server.new max authn boundary minCompress bufferSize comp : Server A).run L acts).ses[i]? = some x)
    (hfine : ∀ e, .session i e ∈ acts → writesFine e.readyAns)
    (F : Nat) (hF : ∀ c ∈ pubCalls acts, ∀ m, c.prepare minCompress comp = some m → wireLen m ≤ F) :
    heldFor x.task.sess ≤ boundary - 1 + F := by
  obtain ⟨C, hC⟩ : ∃ C, chunksUpTo C x.input := by
    generalize x.input = as
    induction as with
    | nil => exact ⟨0, fun bs h => by cases h⟩
    | cons a as ih =>
      obtain ⟨C, hC⟩ := ih
      cases a with
      | data bs =>
        refine ⟨C + bs.length, fun bs' h => ?_⟩
        rcases List.mem_cons.mp h with h | h
        · cases h; exact Nat.le_add_left _ _
        · exact Nat.le_trans (hC bs' h) (Nat.le_add_right _ _)
      | pending | err =>
        refine ⟨C, fun bs' h => ?_⟩
        rcases List.mem_cons.mp h with h | h
        · cases h
        · exact hC bs' h
  have hm := run_sesMem L max authn boundary minCompress bufferSize comp i true F C acts (fun _ => hfine) x hx hC
  refine wrMem_held (hm.wr rfl fun m hmem => ?_)
  obtain ⟨pre, e, post, h1, -, given, hg, hsub, -⟩ := C91_gets_published L max authn boundary minCompress bufferSize comp acts i x hx
  have := hsub.subset hmem
  rw [hg, List.mem_filterMap] at this
  obtain ⟨c, hc, hp⟩ := this
  refine hF c ?_ m hp
  rw [h1]
  exact List.mem_of_mem_drop hc

/-! ## The channel -/

theorem act_chan (L : Lossy) (s : Server A) (a : SrvAct A) (b : Bcast PubMsg) (h : (s.act L a).sock.chan = some b) :
    s.sock.chan = some b ∨ b = Bcast.new s.sock.bufferSize ∨
    (∃ b0 c m, s.sock.chan = some b0 ∧ s.dropped = false ∧ pubCalls [a] = [c] ∧ c.prepare s.sock.minCompress s.sock.comp = some m ∧ b = b0.send m) ∨
    (∃ b0, s.sock.chan = some b0 ∧ b = b0.close) := by
  have hb : ∀ (m : PubMsg) (o : Option PubMsg), (s.record o (s.sock.broadcast m)).sock.chan = some b →
      s.sock.chan = some b ∨ ∃ b0, s.sock.chan = some b0 ∧ b = b0.send m := by
    intro m o hm
    unfold Socket.broadcast at hm
    cases hc : s.sock.chan with
    | none => rw [hc] at hm; simp only [Server.record] at hm; rw [hc] at hm; cases hm
    | some b0 => rw [hc] at hm; simp only [Server.record] at hm; cases hm; exact .inr ⟨b0, rfl, rfl⟩
  cases a with
  | bind bind addrs =>
    simp only [Server.act] at h
    split at h
    · exact .inl h
    · unfold Socket.tryBind at h
      split at h
      · rename_i heq
        exact .inl h
      · rename_i u k heq
        split at heq
        · cases heq
        · split at heq
          · cases heq
          · split at heq
            · cases heq
            · cases heq; cases h; exact .inr (.inl rfl)
      · rename_i u k heq
        split at heq
        · cases heq
        · split at heq
          · cases heq
          · split at heq
            · cases heq; exact .inl h
            · cases heq
  | publish t p =>
    simp only [Server.act] at h
    split at h
    · exact .inl h
    · rename_i hd
      unfold Socket.publish at h
      cases hp : publishPrepare s.sock.minCompress s.sock.comp t p with
      | none => rw [hp] at h; exact .inl h
      | some m =>
        rw [hp] at h
        rcases hb m _ h with h | ⟨b0, h1, h2⟩
        · exact .inl h
        · exact .inr (.inr (.inl ⟨b0, ⟨false, t, p⟩, m, h1, by simpa using hd, rfl, by simpa [PubCall.prepare] using hp, h2⟩))
  | tryPublish t p =>
    simp only [Server.act] at h
    split at h
    · exact .inl h
    · rename_i hd
      unfold Socket.tryPublish at h
      cases hp : tryPublishPrepare s.sock.comp t p with
      | none => rw [hp] at h; exact .inl h
      | some m =>
        rw [hp] at h
        rcases hb m _ h with h | ⟨b0, h1, h2⟩
        · exact .inl h
        · exact .inr (.inr (.inl ⟨b0, ⟨true, t, p⟩, m, h1, by simpa using hd, rfl, by simpa [PubCall.prepare] using hp, h2⟩))
  | driver e =>
    simp only [Server.act] at h
    split at h <;> exact .inl h
  | session i e =>
    simp only [Server.act] at h
    split at h <;> exact .inl h
  | drop =>
    simp only [Server.act] at h
    split at h
    · exact .inl h
    · simp only at h
      cases hc : s.sock.chan with
      | none => rw [hc] at h; cases h
      | some b0 => rw [hc] at h; cases h; exact .inr (.inr (.inr ⟨b0, rfl, rfl⟩))

theorem nextPow2_lt (n : Nat) (h : 0 < n) : nextPow2 n < 2 * n := by
  unfold nextPow2
  split
  · omega
  · have h2 := Nat.log2_self_le (n := n - 1) (by omega)
    rw [Nat.pow_succ]
    omega

/-- C102, the queue: whatever the history of a publisher and however far its subscribers lag, its channel holds fewer than `2 * session_buffer_size` messages, all of them given to `publish` or `try_publish`. -/
theorem C102_channel (L : Lossy) (max : Option Nat) (authn : Option (Bytes → Bool)) (boundary minCompress bufferSize : Nat) (comp : Option Compressor)
    (acts : List (SrvAct A)) (b : Bcast PubMsg)
    (hb : ((Server.new max authn boundary minCompress bufferSize comp : Server A).run L acts).sock.chan = some b) :
    (channelHeld b).length < 2 * bufferSize ∧
    ∀ m ∈ channelHeld b, ∃ c ∈ pubCalls acts, c.prepare minCompress comp = some m := by
  suffices h : ∀ (n : Nat) (acts : List (SrvAct A)), acts.length = n → ∀ b,
      ((Server.new max authn boundary minCompress bufferSize comp : Server A).run L acts).sock.chan = some b →
      b.slots.length = nextPow2 bufferSize ∧ ∀ m ∈ channelHeld b, ∃ c ∈ pubCalls acts, c.prepare minCompress comp = some m by
    obtain ⟨h1, h2⟩ := h _ acts rfl b hb
    refine ⟨?_, h2⟩
    have hI := (run_inv' (L := L) (Q := fun _ => True) acts
      (new_srvInv L _ max authn boundary minCompress bufferSize comp) (fun _ _ => trivial))
    obtain ⟨d, -, hpos, -⟩ := hI.1.bound b hb
    rw [hI.2.2.2.2.1] at hpos
    have := nextPow2_lt bufferSize hpos
    have hle := List.length_filterMap_le (fun (s : MsgRs.Slot PubMsg) => s.val) b.slots
    unfold channelHeld
    omega
  intro n
  induction n with
  | zero =>
    intro acts hl b hb
    have : acts = [] := List.length_eq_zero_iff.mp hl
    subst this
    cases hb
  | succ n ih =>
    intro acts hl b hb
    rcases List.eq_nil_or_concat acts with rfl | ⟨pre, a, rfl⟩
    · simp at hl
    rw [List.concat_eq_append] at hl hb ⊢
    rw [run_snoc] at hb
    have hpre := ih pre (by simpa using hl)
    have hcalls : ∀ c ∈ pubCalls pre, c ∈ pubCalls (pre ++ [a]) := by
      intro c hc
      by_cases hd : .drop ∈ pre
      · rw [pubCalls_append_drop _ _ hd]; exact hc
      · rw [pubCalls_append _ _ hd]; exact List.mem_append_left _ hc
    obtain ⟨-, -, -, -, hbs, hmc, hco⟩ := run_inv' (L := L) (Q := fun _ => True) pre
      (new_srvInv L _ max authn boundary minCompress bufferSize comp) (fun _ _ => trivial)
    have keep : ∀ m, (∃ c ∈ pubCalls pre, c.prepare minCompress comp = some m) → ∃ c ∈ pubCalls (pre ++ [a]), c.prepare minCompress comp = some m :=
      fun m ⟨c, hc, hm⟩ => ⟨c, hcalls c hc, hm⟩
    rcases act_chan L _ a b hb with h | h | ⟨b0, c, m, h1, h2, h3, h4, h5⟩ | ⟨b0, h1, h2⟩
    · exact ⟨(hpre b h).1, fun m hm => keep m ((hpre b h).2 m hm)⟩
    · rw [hbs] at h
      subst h
      refine ⟨Bcast.new_length _, fun m hm => ?_⟩
      simp [channelHeld, Bcast.new, Server.new] at hm
    · obtain ⟨k1, k2⟩ := hpre b0 h1
      subst h5
      refine ⟨by rw [Bcast.slots_send]; exact k1, fun m' hm' => ?_⟩
      unfold channelHeld Bcast.send at hm'
      simp only [List.mem_filterMap] at hm'
      obtain ⟨sl, hsl, hv⟩ := hm'
      rcases List.mem_or_eq_of_mem_set hsl with hsl | hsl
      · exact keep m' (k2 m' (List.mem_filterMap.mpr ⟨sl, hsl, hv⟩))
      · rw [hsl] at hv
        cases hv
        have hd : .drop ∉ pre := by
          intro hd
          have := (run_dropped L pre (Server.new max authn boundary minCompress bufferSize comp : Server A)).mpr (.inr hd)
          rw [h2] at this
          cases this
        rw [hmc, hco] at h4
        refine ⟨c, ?_, h4⟩
        rw [pubCalls_append _ _ hd, h3]
        simp
    · obtain ⟨k1, k2⟩ := hpre b0 h1
      subst h2
      exact ⟨k1, fun m hm => keep m (k2 m hm)⟩

/-! ## Altogether -/

/-- C102, all subscribers: with `max_clients = n`, the sessions that are not over hold together at most `n` times `backpressure_boundary - 1` bytes and one frame. -/
theorem C102_all_subscribers (L : Lossy) (n : Nat) (authn : Option (Bytes → Bool)) (boundary minCompress bufferSize : Nat) (comp : Option Compressor)
    (acts : List (SrvAct A)) (hfine : ∀ i e, .session i e ∈ acts → writesFine e.readyAns)
    (F : Nat) (hF : ∀ c ∈ pubCalls acts, ∀ m, c.prepare minCompress comp = some m → wireLen m ≤ F) :
    ((running ((Server.new (some n) authn boundary minCompress bufferSize comp : Server A).run L acts).ses).map fun x => heldFor x.task.sess).sum ≤
      n * (boundary - 1 + F) := by
  have hsum : ∀ l : List (Ses A), (∀ x ∈ l, heldFor x.task.sess ≤ boundary - 1 + F) →
      (l.map fun x => heldFor x.task.sess).sum ≤ l.length * (boundary - 1 + F) := by
    intro l
    induction l with
    | nil => simp
    | cons x l ih =>
      intro h
      have h1 := h x (.head _)
      have h2 := ih fun y hy => h y (.tail _ hy)
      simp only [List.map_cons, List.sum_cons, List.length_cons, Nat.succ_mul]
      omega
  refine Nat.le_trans (hsum _ fun x hx => ?_) (Nat.mul_le_mul_right _ ?_)
  · have hx := (List.mem_filter.mp hx).1
    obtain ⟨i, hi⟩ := List.mem_iff_getElem?.mp hx
    exact C102_slow_subscriber L (some n) authn boundary minCompress bufferSize comp acts i x hi (hfine i) F hF
  · cases hd : ((Server.new (some n) authn boundary minCompress bufferSize comp : Server A).run L acts).drv with
    | some d => exact Nat.le_trans (Nat.le_add_left _ _) (C91_limit L n authn boundary minCompress bufferSize comp acts d hd)
    | none =>
      have hI := (run_inv' (L := L) (Q := fun _ => True) acts
        (new_srvInv L _ (some n) authn boundary minCompress bufferSize comp) (fun _ _ => trivial)).1
      cases hc : ((Server.new (some n) authn boundary minCompress bufferSize comp : Server A).run L acts).sock.chan with
      | none => rw [(hI.unbound hc).2.1]; exact Nat.zero_le _
      | some b => obtain ⟨d, hd', -⟩ := hI.bound b hc; rw [hd'] at hd; cases hd

/-! ## When writing fails -/

/-- A publisher with a subscribed client whose session is up to date and has `k` bytes or more in its buffer. -/
structure Failing (k : Nat) (s : Server A) : Prop where
  alive : s.dropped = false
  plain : s.sock.comp = none
  at0 : ∃ (b : Bcast PubMsg) (log : List PubMsg) (x : Ses A), s.sock.chan = some b ∧ b.closed = false ∧ b.Holds log ∧ s.ses[0]? = some x ∧ x.task.over = false ∧ x.task.next = log.length ∧
    x.task.sess.pending = none ∧ Trie.contains x.task.sess.filter ['a'] = true ∧ k ≤ x.task.sess.wr.buf.length

/-- The environment of a session whose connection fails every write. -/
def failEnv : Env := { tick := false, flushAns := [], readyAns := [.err], closeAns := [], feed := .pending, now := 0 }

theorem flushStep_fail (s : Session) : s.flushStep failEnv = s := by
  unfold Session.flushStep failEnv
  simp

theorem ready_fail (w : Writer) : ∃ o, w.ready failEnv.readyAns = (o, w) ∧ o ≠ .pending := by
  unfold Writer.ready
  split
  · exact ⟨.err, rfl, by simp⟩
  · exact ⟨.ok, rfl, by simp⟩

theorem iter_took {L : Lossy} {s s' : Session} {e : Env} {m : PubMsg} {o : WOut} (hfl : s.flushStep e = s) (ho : s.wr.ready e.readyAns = (o, s.wr)) (hop : o ≠ .pending)
    (hp : s.pending = none) (hf : e.feed = .msg m) (hon : s.onOutgoing m e.now = .ok s') : s.iter L e = .ok (s', .took m e.now) := by
  unfold Session.iter
  rw [hfl]
  simp only
  rw [ho]
  cases s
  simp only at hp
  subst hp
  cases o with
  | pending => exact absurd rfl hop
  | ok | err =>
    simp only [hf]
    rw [hon]
    rfl

theorem failing_more (L : Lossy) (k : Nat) (s : Server A) (h : Failing k s) :
    Failing (k + 1) (s.run L [.publish ['a'] [], .session 0 failEnv, .session 0 failEnv]) := by
  obtain ⟨hal, hpl, b, log, x, hb, hcl, hh, hx, hov, hn, hp, hfil, hk⟩ := h
  -- the message
  let m : PubMsg := PubMsg.new ['a'] []
  have hprep : publishPrepare s.sock.minCompress s.sock.comp ['a'] [] = some m := by
    unfold publishPrepare; rw [hpl]; simp [m]
  have e1 : s.act L (.publish ['a'] []) = { s with sock := { s.sock with chan := some (b.send m) }, log := s.log ++ [m] } := by
    have hpub : s.sock.publish ['a'] [] = (.ok (), { s.sock with chan := some (b.send m) }) := by
      unfold Socket.publish
      rw [hprep]
      simp only [Socket.broadcast, hb]
    simp only [Server.act]
    rw [if_neg (by rw [hal]; simp), hpub, hprep]
    rfl
  have hh' := Bcast.holds_send hh m
  have hfeed : feedOf (b.send m) x.task.next = .msg m ∧ ((b.send m).recv x.task.next).2 = x.task.next + 1 := by
    have hlt : x.task.next < (log ++ [m]).length := by rw [hn]; simp
    have := Bcast.recv_eq hh' (next := x.task.next) (by rw [hh'.tail]; omega)
    rw [dif_pos hlt, if_pos (by rw [hn]; have := hh'.pos; simp; omega)] at this
    have hg : (log ++ [m])[x.task.next] = m := by simp [hn]
    rw [hg] at this
    unfold feedOf
    rw [this]
    exact ⟨rfl, rfl⟩
  -- it is taken
  have hi1 : ∃ w, x.task.sess.iter L { failEnv with feed := feedOf (b.send m) x.task.next } =
      .ok ({ x.task.sess with pending := some w, seq := x.task.sess.seq + 1 }, .took m 0) := by
    obtain ⟨o, ho, hop⟩ := ready_fail x.task.sess.wr
    have hw : ∃ w, m.intoWire 0 x.task.sess.seq = .ok w := ⟨_, rfl⟩
    obtain ⟨w, hw⟩ := hw
    refine ⟨w, ?_⟩
    have hfl : x.task.sess.flushStep { failEnv with feed := feedOf (b.send m) x.task.next } = x.task.sess := by
      unfold Session.flushStep failEnv; simp
    have ho' : x.task.sess.wr.ready ({ failEnv with feed := feedOf (b.send m) x.task.next } : Env).readyAns = (o, x.task.sess.wr) := ho
    refine iter_took hfl ho' hop hp hfeed.1 ?_
    unfold Session.onOutgoing
    have : Trie.contains x.task.sess.filter m.topic = true := hfil
    have hnow : ({ failEnv with feed := feedOf (b.send m) x.task.next } : Env).now = 0 := rfl
    rw [if_pos this, hnow, hw]
    rfl
  obtain ⟨w, hi1⟩ := hi1
  -- and put into the buffer
  let s1 : Session := { x.task.sess with pending := some w, seq := x.task.sess.seq + 1 }
  have hi2 : ∀ feed, s1.iter L { failEnv with feed := feed } =
      .ok ({ s1 with pending := none, wr := s1.wr.send (PubSub.encode w), shouldFlush := true, bytesTx := s1.bytesTx + w.size }, .sent w) := by
    intro feed
    obtain ⟨o, ho, hop⟩ := ready_fail s1.wr
    have hfl : s1.flushStep { failEnv with feed := feed } = s1 := by
      unfold Session.flushStep failEnv; simp
    unfold Session.iter
    rw [hfl]
    simp only
    have ho' : s1.wr.ready ({ failEnv with feed := feed } : Env).readyAns = (o, s1.wr) := ho
    rw [ho']
    cases o with
    | pending => exact absurd rfl hop
    | ok | err => rfl
  have st1 : x.task.step L (b.send m) failEnv = { next := x.task.next + 1, sess := s1, evs := x.task.evs ++ [.took m 0], over := false } := by
    unfold Task.step
    rw [hov]
    simp only [Bool.false_eq_true, if_false]
    rw [hi1]
    simp only [hfeed.2]
    rfl
  have st2 : (x.task.step L (b.send m) failEnv).step L (b.send m) failEnv =
      { next := x.task.next + 1, sess := { s1 with pending := none, wr := s1.wr.send (PubSub.encode w), shouldFlush := true, bytesTx := s1.bytesTx + w.size },
        evs := x.task.evs ++ [.took m 0] ++ [.sent w], over := false } := by
    rw [st1]
    unfold Task.step
    simp only [Bool.false_eq_true, if_false]
    rw [hi2]
    rfl
  have hlen : 0 < s.ses.length := by
    rcases hq : s.ses with _ | _
    · rw [hq] at hx; cases hx
    · simp
  have hrun : s.run L [.publish ['a'] [], .session 0 failEnv, .session 0 failEnv] =
      ((s.act L (.publish ['a'] [])).act L (.session 0 failEnv)).act L (.session 0 failEnv) := rfl
  rw [hrun, e1]
  have a1 : ({ s with sock := { s.sock with chan := some (b.send m) }, log := s.log ++ [m] } : Server A).act L (.session 0 failEnv) =
      { s with sock := { s.sock with chan := some (b.send m) }, log := s.log ++ [m], ses := s.ses.set 0 { x with task := x.task.step L (b.send m) failEnv } } := by
    simp only [Server.act, hx]
    rw [st1]
    simp
  rw [a1]
  have a2 : ({ s with sock := { s.sock with chan := some (b.send m) }, log := s.log ++ [m], ses := s.ses.set 0 { x with task := x.task.step L (b.send m) failEnv } } : Server A).act L (.session 0 failEnv) =
      { s with sock := { s.sock with chan := some (b.send m) }, log := s.log ++ [m], ses := s.ses.set 0 { x with task := (x.task.step L (b.send m) failEnv).step L (b.send m) failEnv } } := by
    simp only [Server.act]
    rw [List.getElem?_set]
    simp only [if_true, hlen]
    rw [st2]
    simp
  rw [a2]
  refine ⟨hal, hpl, b.send m, log ++ [m], { x with task := (x.task.step L (b.send m) failEnv).step L (b.send m) failEnv }, rfl, hcl, hh', ?_, ?_⟩
  · rw [List.getElem?_set]; simp only [if_true, hlen]
  · rw [st2]
    refine ⟨rfl, ?_, rfl, hfil, ?_⟩
    · simp only [hn, List.length_append, List.length_singleton]
    · simp only [Writer.send_buf, List.length_append]
      have : (PubSub.encode w).length = 20 + w.header.topic.length + w.payload.length := encode_length' w
      have hs : s1.wr = x.task.sess.wr := rfl
      rw [hs]
      omega

/-- C102 needs its hypothesis: a session whose connection fails every write goes on taking messages and putting them into its buffer, which grows without bound until reading from the connection reports
its end. -/
theorem C102_refuted_errors (n : Nat) : ∃ (acts : List (SrvAct Nat)) (x : Ses Nat),
    ((Server.new none none 0 1024 4 none : Server Nat).run Lossy.strict acts).ses[0]? = some x ∧
    (∀ c ∈ pubCalls acts, c.topic = ['a'] ∧ c.payload = []) ∧ n ≤ heldFor x.task.sess := by
  let sub : PubSub.Message := ⟨⟨0, 9, PubSub.subPrefix ++ [0x61], 1, 0, 0⟩, []⟩
  let conn : Conn Nat := ⟨1, some 1, ⟨[.data (PubSub.encode sub), .pending], [], [], []⟩⟩
  let start : List (SrvAct Nat) := [.bind some [80], .driver ⟨none, none, some conn⟩, .driver ⟨none, some (0, true), none⟩, .session 0 failEnv]
  have h0 : Failing 0 ((Server.new none none 0 1024 4 none : Server Nat).run Lossy.strict start) := by
    have hs : ((Server.new none none 0 1024 4 none : Server Nat).run Lossy.strict start).ses.map
        (fun x => (x.task.over, x.task.next, x.task.sess.pending, Trie.contains x.task.sess.filter ['a'])) = [(false, 0, none, true)] := by decide +kernel
    have hc : ((Server.new none none 0 1024 4 none : Server Nat).run Lossy.strict start).sock.chan = some (Bcast.new 4) := by decide +kernel
    have hdp : ((Server.new none none 0 1024 4 none : Server Nat).run Lossy.strict start).dropped = false ∧
        ((Server.new none none 0 1024 4 none : Server Nat).run Lossy.strict start).sock.comp = none := ⟨rfl, rfl⟩
    generalize ((Server.new none none 0 1024 4 none : Server Nat).run Lossy.strict start) = s at hs hc hdp ⊢
    rcases hq : s.ses with _ | ⟨x, rest⟩
    · rw [hq] at hs; cases hs
    rw [hq] at hs
    simp only [List.map_cons, List.cons.injEq, Prod.mk.injEq] at hs
    obtain ⟨⟨h1, h2, h3, h4⟩, -⟩ := hs
    exact ⟨hdp.1, hdp.2, _, [], x, hc, rfl, Bcast.holds_new 4, by rw [hq]; rfl, h1, h2, h3, h4, Nat.zero_le _⟩
  suffices h : ∃ acts : List (SrvAct Nat), Failing n ((Server.new none none 0 1024 4 none : Server Nat).run Lossy.strict acts) ∧
      ∀ c ∈ pubCalls acts, c.topic = ['a'] ∧ c.payload = [] by
    obtain ⟨acts, ⟨-, -, b, log, x, -, -, -, hx, -, -, hp, -, hk⟩, hcalls⟩ := h
    exact ⟨acts, x, hx, hcalls, Nat.le_trans hk (Nat.le_add_right _ _)⟩
  induction n with
  | zero => exact ⟨start, h0, by intro c hc; cases hc⟩
  | succ n ih =>
    obtain ⟨acts, h1, h2⟩ := ih
    refine ⟨acts ++ [.publish ['a'] [], .session 0 failEnv, .session 0 failEnv], ?_, ?_⟩
    · rw [Server.run, List.foldl_append]
      exact failing_more Lossy.strict n _ h1
    · intro c hc
      by_cases hd : .drop ∈ acts
      · rw [pubCalls_append_drop _ _ hd] at hc; exact h2 c hc
      · rw [pubCalls_append _ _ hd, List.mem_append] at hc
        rcases hc with hc | hc
        · exact h2 c hc
        · simp [pubCalls] at hc; subst hc; exact ⟨rfl, rfl⟩

/-- A client that stops reading after two bytes: its session has taken two of the three messages published for it, and holds 42 bytes of their frames; with `backpressure_boundary = 30` it takes no more. -/
example :
    let sub : PubSub.Message := ⟨⟨0, 9, PubSub.subPrefix ++ [0x61], 1, 0, 0⟩, []⟩
    let conn : Conn Nat := ⟨1, some 1, ⟨[.data (PubSub.encode sub), .pending], [], [], []⟩⟩
    let env : Env := { tick := true, flushAns := [.ok 2], readyAns := [], closeAns := [], feed := .pending, now := 0 }
    let stop : Env := { tick := true, flushAns := [], readyAns := [], closeAns := [], feed := .pending, now := 0 }
    let acts : List (SrvAct Nat) := [.bind some [80], .driver ⟨none, none, some conn⟩, .driver ⟨none, some (0, true), none⟩, .session 0 env,
      .publish ['a'] [1], .session 0 env, .session 0 env, .publish ['a'] [2], .session 0 env, .session 0 stop,
      .publish ['a'] [3], .session 0 stop]
    let s := (Server.new (some 1) none 30 1024 4 none : Server Nat).run Lossy.strict acts
    s.ses.map (fun x => (x.task.sess.wr.wire.length, heldFor x.task.sess, (tookOf x.task.evs).length)) = [(2, 42, 2)] ∧
      s.sock.chan.map (fun b => (channelHeld b).length) = some 3 ∧
      (∀ i e, .session i e ∈ acts → writesFine e.readyAns) := by
  refine ⟨by decide +kernel, by decide +kernel, ?_⟩
  intro i e h a ha
  have : e.readyAns = [] := by simp at h; grind
  rw [this] at ha
  cases ha

end MsgRs.Props
