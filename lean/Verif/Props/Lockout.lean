import Verif.Props.Admission
import Verif.Props.Rep
import Verif.Props.RepServer
import Verif.Props.PubServer
/-!
# C111: clients that do not authenticate and those that do

The drivers count a client when its connection is accepted (pub/driver.rs:113-128, rep/driver.rs:157-176), before it has authenticated, and an authentication
task has no time limit.
-/
namespace MsgRs.Props.Spec
open MsgRs

/-- A client that connects and then never gets through its handshake: its address is known, its authentication task waits for ever (for instance because the
client sends nothing). -/
def Silent (f : Bytes → Bool) (c : Conn A) : Prop := c.addr.isSome ∧ ∃ w, hsServer f c.hs = .waiting w

/-- These clients connect to a publisher, one after the other: each is accepted by the listener, then its connection is established. -/
def pubArrive (cs : List (Conn A)) : List (Pub.DEnv A) := cs.flatMap fun c => [⟨none, none, some c⟩, ⟨none, some (0, true), none⟩]

/-- The same for a reply socket. -/
def repArrive (cs : List (Conn A)) : List (Rep.Act A) := cs.flatMap fun c => [.accept c, .ready 0 true]

end MsgRs.Props.Spec

namespace MsgRs.Props
open MsgRs Spec

/-! ## The publisher -/

/-- A publisher's driver that has no room and only silent clients. -/
structure PubLocked (f : Bytes → Bool) (n : Nat) (d : Pub.Driver A) : Prop where
  max : d.max = some n
  authn : d.authn = some f
  full : n ≤ d.active
  conns : d.connTasks = []
  sess : d.sessions = []
  wait : ∀ c ∈ d.authTasks, Silent f c

theorem PubLocked.iter {f : Bytes → Bool} {n : Nat} {d : Pub.Driver A} (h : PubLocked f n d) (e : Pub.DEnv A) : d.iter e = d := by
  have h1 : d.stepJoin e = (d, false) := by
    unfold Pub.Driver.stepJoin
    rw [h.authn]
    cases hj : e.join with
    | none => rfl
    | some i =>
      simp only
      cases hc : d.authTasks[i]? with
      | none => rfl
      | some c =>
        obtain ⟨-, w, hw⟩ := h.wait c (List.mem_of_getElem? hc)
        simp only [hw]
  have h2 : d.stepConn e = (d, false) := by
    unfold Pub.Driver.stepConn
    cases hr : e.ready with
    | none => rfl
    | some x => simp only [h.conns, List.getElem?_nil]
  have h3 : (d.stepAccept e).1 = d := by
    unfold Pub.Driver.stepAccept
    cases ha : e.accept with
    | none => rfl
    | some c =>
      simp only [h.max]
      rw [if_pos h.full]
  simp only [Pub.Driver.iter, h1, h2, h3]

theorem pub_two (f : Bytes → Bool) (n : Nat) (d : Pub.Driver A) (c : Conn A) (a : A) (hm : d.max = some n) (ha : d.authn = some f)
    (hc : d.connTasks = []) (hfull : ¬ n ≤ d.active) (hadr : c.addr = some a) :
    d.iter ⟨none, none, some c⟩ = { d with active := d.active + 1, connTasks := [c] } ∧
    ({ d with active := d.active + 1, connTasks := [c] } : Pub.Driver A).iter ⟨none, some (0, true), none⟩
      = { d with active := d.active + 1, connTasks := [], authTasks := d.authTasks ++ [c] } := by
  cases d
  simp only at hm ha hc hfull
  subst hm ha hc
  constructor
  · simp only [Pub.Driver.iter, Pub.Driver.stepJoin, Pub.Driver.stepConn, Pub.Driver.stepAccept, List.nil_append]
    rw [if_neg hfull]
  · simp [Pub.Driver.iter, Pub.Driver.stepJoin, Pub.Driver.stepConn, Pub.Driver.onIncoming, hadr]

theorem pubArrive_locked (f : Bytes → Bool) (n : Nat) (cs : List (Conn A)) (d : Pub.Driver A) (hm : d.max = some n) (ha : d.authn = some f)
    (hc : d.connTasks = []) (hs : d.sessions = []) (hw : ∀ c ∈ d.authTasks, Silent f c) (hcs : ∀ c ∈ cs, Silent f c) (hn : n ≤ d.active + cs.length) :
    ∃ d', (pubArrive cs).foldl Pub.Driver.iter d = d' ∧ PubLocked f n d' := by
  induction cs generalizing d with
  | nil => exact ⟨_, rfl, hm, ha, hn, hc, hs, hw⟩
  | cons c cs ih =>
    have hstep : pubArrive (c :: cs) = [⟨none, none, some c⟩, ⟨none, some (0, true), none⟩] ++ pubArrive cs := rfl
    rw [hstep, List.foldl_append]
    by_cases hfull : n ≤ d.active
    · have hl : PubLocked f n d := ⟨hm, ha, hfull, hc, hs, hw⟩
      simp only [List.foldl_cons, List.foldl_nil, hl.iter]
      exact ih d hm ha hc hs hw (fun c' h' => hcs c' (by simp [h'])) (by omega)
    · obtain ⟨a, hadr⟩ := Option.isSome_iff_exists.1 (hcs c (by simp)).1
      obtain ⟨e1, e2⟩ := pub_two f n d c a hm ha hc hfull hadr
      simp only [List.foldl_cons, List.foldl_nil, e1, e2]
      refine ih _ hm ha rfl hs ?_ (fun c' h' => hcs c' (by simp [h'])) ?_
      · intro c' h'
        rcases List.mem_append.1 h' with h' | h'
        · exact hw c' h'
        · rw [List.mem_singleton.1 h']; exact hcs c (by simp)
      · simp only [List.length_cons] at hn ⊢; omega

/-- A publisher that serves nobody and never will. -/
structure SrvLocked (f : Bytes → Bool) (n : Nat) (s : Pub.Server A) : Prop where
  ses : s.ses = []
  tr : s.sock.transport = none
  drv : ∃ d, s.drv = some d ∧ PubLocked f n d

theorem pub_broadcast_tr (s : Pub.Socket A) (m : PubMsg) : (s.broadcast m).2.transport = s.transport := by
  unfold Pub.Socket.broadcast; split <;> rfl

theorem pub_publish_tr (s : Pub.Socket A) (t : Str) (p : Bytes) : (s.publish t p).2.transport = s.transport := by
  unfold Pub.Socket.publish; split
  · rfl
  · exact pub_broadcast_tr ..

theorem pub_tryPublish_tr (s : Pub.Socket A) (t : Str) (p : Bytes) : (s.tryPublish t p).2.transport = s.transport := by
  unfold Pub.Socket.tryPublish; split
  · rfl
  · exact pub_broadcast_tr ..

theorem SrvLocked.act {L : Lossy} {f : Bytes → Bool} {n : Nat} {s : Pub.Server A} (h : SrvLocked f n s) (a : Pub.SrvAct A) : SrvLocked f n (s.act L a) := by
  have rcd : ∀ (m : Option PubMsg) (x : Except Pub.PubErr Unit × Pub.Socket A), x.2.transport = s.sock.transport → SrvLocked f n (s.record m x) := by
    rintro m ⟨(_ | _), sock⟩ hx
    · exact ⟨h.ses, hx.trans h.tr, h.drv⟩
    · exact ⟨h.ses, hx.trans h.tr, h.drv⟩
  cases a with
  | bind b as =>
    simp only [Pub.Server.act]
    split
    · exact h
    · have : s.sock.tryBind b as = .panic := by
        unfold Pub.Socket.tryBind; split
        · rfl
        · simp only [h.tr]
      rw [this]; exact h
  | publish t p =>
    simp only [Pub.Server.act]
    split
    · exact h
    · exact rcd _ _ (pub_publish_tr ..)
  | tryPublish t p =>
    simp only [Pub.Server.act]
    split
    · exact h
    · exact rcd _ _ (pub_tryPublish_tr ..)
  | driver e =>
    obtain ⟨d, hd, hl⟩ := h.drv
    simp only [Pub.Server.act, hd]
    split
    · rename_i d' b hd' hb
      cases hd'
      rw [hl.iter e]
      refine ⟨?_, h.tr, d, rfl, hl⟩
      simp [h.ses]
    · exact h
  | session i e =>
    simp only [Pub.Server.act, h.ses, List.getElem?_nil]
    exact h
  | drop =>
    simp only [Pub.Server.act]
    split
    · exact h
    · exact ⟨h.ses, h.tr, h.drv⟩

theorem SrvLocked.run {L : Lossy} {f : Bytes → Bool} {n : Nat} (acts : List (Pub.SrvAct A)) {s : Pub.Server A} (h : SrvLocked f n s) :
    SrvLocked f n (s.run L acts) := by
  induction acts generalizing s with
  | nil => exact h
  | cons a as ih => exact ih (h.act a)

/-- Driver turns of a bound publisher that start no session. -/
theorem srv_driver_turns (L : Lossy) (es : List (Pub.DEnv A)) (s : Pub.Server A) (d : Pub.Driver A) (b) (hd : s.drv = some d) (hb : s.sock.chan = some b)
    (hq : ∀ k, ((es.take k).foldl Pub.Driver.iter d).sessions = []) :
    s.run L (es.map .driver) = { s with drv := some (es.foldl Pub.Driver.iter d) } := by
  induction es generalizing s d with
  | nil => cases s; simp only at hd; subst hd; rfl
  | cons e es ih =>
    have h0 : d.sessions = [] := hq 0
    have h1 : (d.iter e).sessions = [] := by have := hq 1; simpa using this
    have hs : s.act L (.driver e) = { s with drv := some (d.iter e) } := by
      simp only [Pub.Server.act, hd, hb, h1, h0]
      simp
    show (s.act L (.driver e)).run L (es.map .driver) = _
    rw [hs]
    exact ih _ (d.iter e) rfl hb (fun k => by have := hq (k + 1); simpa using this)

theorem pubArrive_quiet (f : Bytes → Bool) (n : Nat) (cs : List (Conn A)) (hcs : ∀ c ∈ cs, Silent f c) (d : Pub.Driver A) (hm : d.max = some n)
    (ha : d.authn = some f) (hc : d.connTasks = []) (hs : d.sessions = []) (hw : ∀ c ∈ d.authTasks, Silent f c) (k : Nat) :
    (((pubArrive cs).take k).foldl Pub.Driver.iter d).sessions = [] := by
  induction cs generalizing d k with
  | nil => simpa [pubArrive] using hs
  | cons c cs ih =>
    have hstep : pubArrive (c :: cs) = ⟨none, none, some c⟩ :: ⟨none, some (0, true), none⟩ :: pubArrive cs := rfl
    rw [hstep]
    by_cases hfull : n ≤ d.active
    · have hl : PubLocked f n d := ⟨hm, ha, hfull, hc, hs, hw⟩
      have : ∀ es : List (Pub.DEnv A), es.foldl Pub.Driver.iter d = d := by
        intro es
        induction es with
        | nil => rfl
        | cons e es ih => rw [List.foldl_cons, hl.iter, ih]
      rw [this]; exact hs
    · obtain ⟨a, hadr⟩ := Option.isSome_iff_exists.1 (hcs c (by simp)).1
      obtain ⟨e1, e2⟩ := pub_two f n d c a hm ha hc hfull hadr
      match k with
      | 0 => exact hs
      | 1 => simpa [e1] using hs
      | k + 2 =>
        simp only [List.take_succ_cons, List.foldl_cons, e1, e2]
        refine ih (fun c' h' => hcs c' (by simp [h'])) { d with active := d.active + 1, connTasks := [], authTasks := d.authTasks ++ [c] } hm ha rfl hs ?_ k
        intro c' h'
        rcases List.mem_append.1 h' with h' | h'
        · exact hw c' h'
        · rw [List.mem_singleton.1 h']; exact hcs c (by simp)

/-- C111 (refuted as stated), publisher: whatever the authenticator and the limit `n`, `n` clients that connect and never authenticate keep everybody else out: in every
later history, whoever connects, the publisher serves nobody. -/
theorem C111_publisher_lockout_refuted (L : Lossy) (n : Nat) (f : Bytes → Bool) (boundary minCompress bufferSize : Nat) (hbuf : 0 < bufferSize ∧ bufferSize < 2 ^ 63)
    (comp : Option Compressor) (bind : A → Option A) (addr l : A) (hbind : bind addr = some l)
    (cs : List (Conn A)) (hlen : cs.length = n) (hcs : ∀ c ∈ cs, Silent f c) (later : List (Pub.SrvAct A)) :
    let s := (Pub.Server.new (some n) (some f) boundary minCompress bufferSize comp : Pub.Server A).run L
      ((.bind bind [addr] :: (pubArrive cs).map .driver) ++ later)
    s.ses = [] ∧ ∃ d, s.drv = some d ∧ d.sessions = [] := by
  intro s
  have hb : ((Pub.Server.new (some n) (some f) boundary minCompress bufferSize comp : Pub.Server A).act L (.bind bind [addr]))
      = { (Pub.Server.new (some n) (some f) boundary minCompress bufferSize comp : Pub.Server A) with
          sock := { (Pub.Socket.new minCompress bufferSize comp : Pub.Socket A) with transport := none, chan := some (Bcast.new bufferSize), localAddr := some l }
          drv := some { max := some n, authn := some f } } := by
    simp only [Pub.Server.act, Pub.Server.new, Pub.Socket.tryBind, Pub.Socket.new, Pub.bindLoop, hbind]
    rw [if_neg (by simp), if_neg (by simp; omega)]
  have hl : SrvLocked f n s := by
    show SrvLocked f n (List.foldl _ _ _)
    rw [List.foldl_append, List.foldl_cons, hb]
    refine SrvLocked.run later ?_
    have ht := srv_driver_turns L (pubArrive cs)
      { (Pub.Server.new (some n) (some f) boundary minCompress bufferSize comp : Pub.Server A) with
          sock := { (Pub.Socket.new minCompress bufferSize comp : Pub.Socket A) with transport := none, chan := some (Bcast.new bufferSize), localAddr := some l }
          drv := some { max := some n, authn := some f } } { max := some n, authn := some f } (Bcast.new bufferSize) rfl rfl
      (pubArrive_quiet f n cs hcs _ rfl rfl rfl rfl (by simp))
    unfold Pub.Server.run at ht
    rw [ht]
    obtain ⟨d', hd', hloc⟩ := pubArrive_locked f n cs { max := some n, authn := some f } rfl rfl rfl rfl (by simp) hcs (by simp; omega)
    exact ⟨rfl, rfl, d', by rw [hd'], hloc⟩
  obtain ⟨d, hd, hloc⟩ := hl.drv
  exact ⟨hl.ses, d, hd, hloc.sess⟩

/-- A client that connects and sends nothing is silent, whatever the authenticator. -/
theorem silent_nothing (f : Bytes → Bool) (u : Nat) (a : A) : Silent f (⟨u, some a, ⟨[], [], [], []⟩⟩ : Conn A) := ⟨rfl, [], rfl⟩

theorem filter_pending {as : List WriteAns} (h : ∀ a ∈ as, a = .pending) : as.filter (· ≠ .pending) = [] := by
  rw [List.filter_eq_nil_iff]
  intro a ha
  simp [h a ha]

/-- C111, refused clients too: a client whose token the authenticator refuses but that does not take the refusal (its connection accepts no bytes, or it does not let
the connection be flushed or closed) stays for ever, like one that sends nothing: the clients of `C111_publisher_lockout_refuted` and `C111_reply_lockout_refuted` need not be silent ones. -/
theorem C111_refused_stays_refuted (f : Bytes → Bool) (c : Conn A) (ha : c.addr.isSome) (k : Nat) (id : Bytes) (hid : id.length < 2 ^ 32) (hf : f id = false)
    (rest : List ReadAns) (hreads : c.hs.reads = List.replicate k .pending ++ .data (Spec.authBytes id) :: rest)
    (h : (∀ a ∈ c.hs.sendAns, a = .pending) ∨
      ((∃ as, c.hs.sendAns = .ok 2 :: .ok 1 :: as) ∧ ∀ a ∈ c.hs.flushAns, a = .pending) ∨
      ((∃ as, c.hs.sendAns = .ok 2 :: .ok 1 :: as) ∧ (∃ as, c.hs.flushAns = .ok 1 :: as) ∧ ∀ a ∈ c.hs.closeAns, a = .pending)) :
    Silent f c := by
  refine ⟨ha, ?_⟩
  obtain ⟨r, h1, -, -⟩ := await_frame k id [] hid rest
  rw [List.append_nil] at h1
  unfold hsServer
  rw [hreads, h1]
  simp only [hf, Bool.false_eq_true, if_false]
  unfold hsReject
  rcases h with h | ⟨⟨as, hs⟩, h⟩ | ⟨⟨as, hs⟩, ⟨as2, hfl⟩, h⟩
  · have this : List.filter (fun x => !decide (x = WriteAns.pending)) c.hs.sendAns = [] := by simpa using filter_pending h
    exact ⟨_, by simp [Writer.sendAwait, this, Writer.flush, Writer.send, Auth.encode, Auth.WIRE_ID]; rfl⟩
  · have this : List.filter (fun x => !decide (x = WriteAns.pending)) c.hs.flushAns = [] := by simpa using filter_pending h
    exact ⟨_, by simp [hs, Writer.sendAwait, Writer.flushAwait, this, Writer.flush, Writer.send, Auth.encode, Auth.WIRE_ID]; rfl⟩
  · have this : List.filter (fun x => !decide (x = WriteAns.pending)) c.hs.closeAns = [] := by simpa using filter_pending h
    exact ⟨_, by simp [hs, hfl, Writer.sendAwait, Writer.flushAwait, this, Writer.flush, Writer.send, Auth.encode, Auth.WIRE_ID]; rfl⟩

/-- A client with a wrong token that takes the refusal but does not let the connection be closed. -/
example : Silent (· == [7]) (⟨1, some 1, ⟨[.data (Spec.authBytes [8])], [.ok 2, .ok 1], [.ok 1], [.pending]⟩⟩ : Conn Nat) :=
  C111_refused_stays_refuted _ _ rfl 0 [8] (by decide) rfl [] rfl (.inr (.inr ⟨⟨_, rfl⟩, ⟨_, rfl⟩, by simp⟩))

/-! ## The reply socket -/

/-- A reply socket's driver that has no room and only silent clients. -/
structure RepLocked (f : Bytes → Bool) (n : Nat) (d : Rep.Driver A) : Prop where
  max : d.max = some n
  authn : d.authn = some f
  full : n ≤ d.active
  conns : d.connTasks = []
  peers : d.peers = []
  inbox : d.inbox = []
  held : d.held = []
  taken : d.taken = []
  wait : ∀ c ∈ d.authTasks, Silent f c

theorem RepLocked.act [DecidableEq A] {D : Decompressors} {f : Bytes → Bool} {n : Nat} {d : Rep.Driver A} (h : RepLocked f n d) (a : Rep.Act A) :
    d.act D a = .ok d := by
  cases a with
  | peer k e => simp only [Rep.Driver.act, Rep.Driver.stepPeer, h.peers, List.getElem?_nil]
  | join i =>
    simp only [Rep.Driver.act, Rep.Driver.stepJoin, h.authn]
    cases hc : d.authTasks[i]? with
    | none => rfl
    | some c =>
      obtain ⟨-, w, hw⟩ := h.wait c (List.mem_of_getElem? hc)
      simp only [hw]
  | ready i ok => simp only [Rep.Driver.act, Rep.Driver.stepConn, h.conns, List.getElem?_nil]
  | accept c =>
    simp only [Rep.Driver.act, Rep.Driver.stepAccept, h.max]
    rw [if_pos h.full]
  | recv => simp only [Rep.Driver.act, h.inbox]
  | respond i b => simp only [Rep.Driver.act, h.held, List.getElem?_nil]
  | drop i => simp only [Rep.Driver.act, h.held, List.getElem?_nil]

theorem repArrive_locked [DecidableEq A] (D : Decompressors) (f : Bytes → Bool) (n : Nat) (cs : List (Conn A)) (d : Rep.Driver A) (hm : d.max = some n)
    (ha : d.authn = some f) (hc : d.connTasks = []) (hp : d.peers = []) (hi : d.inbox = []) (hh : d.held = []) (ht : d.taken = [])
    (hw : ∀ c ∈ d.authTasks, Silent f c) (hcs : ∀ c ∈ cs, Silent f c) (hn : n ≤ d.active + cs.length) :
    ∃ d', d.run D (repArrive cs) = .ok d' ∧ RepLocked f n d' := by
  induction cs generalizing d with
  | nil => exact ⟨_, rfl, hm, ha, hn, hc, hp, hi, hh, ht, hw⟩
  | cons c cs ih =>
    have hstep : repArrive (c :: cs) = [.accept c, .ready 0 true] ++ repArrive cs := rfl
    rw [hstep, Rep.run_append]
    by_cases hfull : n ≤ d.active
    · have hl : RepLocked f n d := ⟨hm, ha, hfull, hc, hp, hi, hh, ht, hw⟩
      have h2 : d.run D [.accept c, .ready 0 true] = .ok d := by
        simp only [Rep.Driver.run, hl.act, bind, R.bind]
      rw [h2]
      exact ih d hm ha hc hp hi hh ht hw (fun c' h' => hcs c' (by simp [h'])) (by omega)
    · obtain ⟨a, hadr⟩ := Option.isSome_iff_exists.1 (hcs c (by simp)).1
      have h2 : d.run D [.accept c, .ready 0 true] = .ok { d with active := d.active + 1, connTasks := [], authTasks := d.authTasks ++ [c] } := by
        simp only [Rep.Driver.run, Rep.Driver.act, Rep.Driver.stepAccept, hm, bind, R.bind]
        rw [if_neg hfull]
        simp [Rep.Driver.stepConn, hc, hadr, ha]
      rw [h2]
      refine ih _ hm ha rfl hp hi hh ht ?_ (fun c' h' => hcs c' (by simp [h'])) ?_
      · intro c' h'
        rcases List.mem_append.1 h' with h' | h'
        · exact hw c' h'
        · rw [List.mem_singleton.1 h']; exact hcs c (by simp)
      · simp only [List.length_cons] at hn ⊢; omega

/-- A reply socket that serves nobody and never will. -/
structure SockLocked (f : Bytes → Bool) (n : Nat) (s : Rep.Socket A) : Prop where
  tr : s.transport = none
  drv : ∃ d, s.drv = some d ∧ RepLocked f n d

theorem SockLocked.act [DecidableEq A] {D : Decompressors} {f : Bytes → Bool} {n : Nat} {s : Rep.Socket A} (h : SockLocked f n s) (a : Rep.SAct A) :
    ∃ s', s.act D a = .ok s' ∧ SockLocked f n s' := by
  obtain ⟨d, hd, hl⟩ := h.drv
  cases a with
  | bind b as =>
    simp only [Rep.Socket.act]
    split
    · exact ⟨s, rfl, h⟩
    · have : s.tryBind b as = .panic := by simp only [Rep.Socket.tryBind, h.tr]
      rw [this]
      exact ⟨_, rfl, rfl, d, hd, hl⟩
  | next =>
    simp only [Rep.Socket.act]
    split
    · exact ⟨s, rfl, h⟩
    · simp only [Rep.Socket.pollNext, hd, hl.inbox]
      exact ⟨s, rfl, h⟩
  | driver a =>
    by_cases hr : a = .recv
    · subst hr; exact ⟨s, rfl, h⟩
    · have : s.act D (.driver a) = (do let d' ← d.act D a; return { s with drv := some d' }) := by
        cases a <;> first | (exact absurd rfl hr) | simp only [Rep.Socket.act, hd]
      rw [this, hl.act]
      exact ⟨_, rfl, h.tr, d, rfl, hl⟩
  | drop =>
    simp only [Rep.Socket.act]
    split
    · exact ⟨s, rfl, h⟩
    · refine ⟨_, rfl, h.tr, d.closeInbox, by rw [hd]; rfl, ?_⟩
      simp only [Rep.Driver.closeInbox, hl.inbox, List.foldl_nil]
      exact ⟨hl.max, hl.authn, hl.full, hl.conns, hl.peers, rfl, hl.held, by simp [hl.taken], hl.wait⟩

theorem SockLocked.run [DecidableEq A] {D : Decompressors} {f : Bytes → Bool} {n : Nat} (acts : List (Rep.SAct A)) {s : Rep.Socket A} (h : SockLocked f n s) :
    ∃ s', s.run D acts = .ok s' ∧ SockLocked f n s' := by
  induction acts generalizing s with
  | nil => exact ⟨s, rfl, h⟩
  | cons a as ih =>
    obtain ⟨s1, h1, hl1⟩ := h.act (D := D) a
    obtain ⟨s2, h2, hl2⟩ := ih hl1
    exact ⟨s2, by rw [Rep.Socket.run, h1]; exact h2, hl2⟩

theorem sock_driver_turns [DecidableEq A] (D : Decompressors) (as : List (Rep.Act A)) (hr : .recv ∉ as) (s : Rep.Socket A) (d d' : Rep.Driver A)
    (hd : s.drv = some d) (hrun : d.run D as = .ok d') : s.run D (as.map .driver) = .ok { s with drv := some d' } := by
  induction as generalizing s d with
  | nil =>
    cases hrun
    cases s; simp only at hd; subst hd; rfl
  | cons a as ih =>
    rw [Rep.Driver.run] at hrun
    cases ha : d.act D a with
    | panic => rw [ha] at hrun; cases hrun
    | ok d1 =>
      rw [ha] at hrun
      have h1 : s.act D (.driver a) = .ok { s with drv := some d1 } := by
        have : s.act D (.driver a) = (do let d' ← d.act D a; return { s with drv := some d' }) := by
          have hne : a ≠ .recv := fun h => hr (by simp [h])
          cases a <;> first | (exact absurd rfl hne) | simp only [Rep.Socket.act, hd]
        rw [this, ha]; rfl
      rw [List.map_cons, Rep.Socket.run, h1]
      exact ih (fun h => hr (by simp [h])) { s with drv := some d1 } d1 rfl hrun

/-- C111 (refuted as stated), reply socket: whatever the authenticator and the limit `n`, `n` clients that connect and never authenticate keep everybody else out: in every
later history, whoever connects, the socket serves nobody and the application receives no request. -/
theorem C111_reply_lockout_refuted [DecidableEq A] (D : Decompressors) (n : Nat) (hn : n < 2 ^ 63) (f : Bytes → Bool) (comp : Option Compressor)
    (bind : A → Option A) (addr l : A) (hbind : bind addr = some l) (cs : List (Conn A)) (hlen : cs.length = n) (hcs : ∀ c ∈ cs, Silent f c)
    (later : List (Rep.SAct A)) :
    ∃ s d, (Rep.Socket.new (some n) (some f) comp : Rep.Socket A).run D ((.bind bind [addr] :: (repArrive cs).map .driver) ++ later) = .ok s ∧
      s.drv = some d ∧ d.peers = [] ∧ d.taken = [] := by
  have hb : (Rep.Socket.new (some n) (some f) comp : Rep.Socket A).act D (.bind bind [addr])
      = .ok { (Rep.Socket.new (some n) (some f) comp : Rep.Socket A) with
              transport := none, localAddr := some l, drv := some (Rep.Driver.new (some n) (some f) comp) } := by
    have ht : (Rep.Socket.new (some n) (some f) comp : Rep.Socket A).tryBind bind [addr]
        = .ok (true, { (Rep.Socket.new (some n) (some f) comp : Rep.Socket A) with
              transport := none, localAddr := some l, drv := some (Rep.Driver.new (some n) (some f) comp) }) := by
      have hx : ¬ 2 ^ 63 ≤ n := by omega
      have hbl : Pub.bindLoop bind none [addr] = some l := by simp only [Pub.bindLoop, hbind]
      unfold Rep.Socket.tryBind
      show (match Pub.bindLoop bind none [addr] with
        | none => _
        | some l => if 2 ^ 63 ≤ n then R.panic else _) = _
      rw [hbl]
      exact if_neg hx
    have hnd : (Rep.Socket.new (some n) (some f) comp : Rep.Socket A).dropped = false := rfl
    simp only [Rep.Socket.act, ht, hnd]
    rfl
  obtain ⟨d', hd', hl⟩ := repArrive_locked D f n cs (Rep.Driver.new (some n) (some f) comp) rfl rfl rfl rfl rfl rfl rfl (by simp [Rep.Driver.new]) hcs
    (by simp [Rep.Driver.new]; omega)
  have hr : Rep.Act.recv ∉ repArrive cs := by simp [repArrive]
  have h2 := sock_driver_turns D (repArrive cs) hr
    { (Rep.Socket.new (some n) (some f) comp : Rep.Socket A) with
              transport := none, localAddr := some l, drv := some (Rep.Driver.new (some n) (some f) comp) } _ d' rfl hd'
  obtain ⟨s, hs, hls⟩ := SockLocked.run (D := D) later (s := { (Rep.Socket.new (some n) (some f) comp : Rep.Socket A) with
              transport := none, localAddr := some l, drv := some d' }) ⟨rfl, d', rfl, hl⟩
  obtain ⟨d, hd, hld⟩ := hls.drv
  refine ⟨s, d, ?_, hd, hld.peers, hld.taken⟩
  rw [Rep.sock_run_append, Rep.Socket.run, hb]
  show (Rep.Socket.run D _ _ >>= _) = _
  rw [h2]; exact hs

/-! ## What does hold -/

/-- Waiting, then hanging up: the authentication of a client that sends nothing fails. -/
theorem hang_up_fails (f : Bytes → Bool) (k : Nat) (rest : List ReadAns) (s fl cl : List WriteAns) :
    hsServer f ⟨List.replicate k .pending ++ .data [] :: .data [] :: rest, s, fl, cl⟩ = .failed [] := by
  have h : ∀ k, ∃ rd, (Reader.new Auth.serverCodec).await Auth.serverCodec (List.replicate k .pending ++ .data [] :: .data [] :: rest)
      = .ok (.ended, rd, .data [] :: rest) := by
    intro k
    induction k with
    | zero => exact ⟨_, rfl⟩
    | succ k ih =>
      obtain ⟨rd, h⟩ := ih
      exact ⟨rd, h⟩
  obtain ⟨rd, h⟩ := h k
  simp only [hsServer, h]

/-- C111 (partial), publisher: in every history, whatever the other clients did, a client that authenticates is served when it connects while fewer than `max_clients`
connections are there, those that have not authenticated included, provided none so far made its authentication task panic; without `max_clients` always. And a
connected client whose handshake fails gives its place back. Missing: clients that are there without authenticating count like the others, for which the property is
false (`C111_publisher_lockout_refuted`). -/
theorem C111_publisher_room_partial (max : Option Nat) (f : Bytes → Bool) (acts : List (Pub.DAct A)) :
    let d := ({ max, authn := some f } : Pub.Driver A).run acts
    (∀ (c : Conn A) id w rest lost, c.addr.isSome → hsServer f c.hs = .accepted id w rest lost →
      (∀ n, max = some n → d.connTasks.length + d.authTasks.length + d.sessions.length < n ∧
        ∀ e, Pub.DAct.iter e ∈ acts → ∀ c, e.accept = some c → hsServer f c.hs ≠ .panicked) →
      (d.run [.iter ⟨none, none, some c⟩, .iter ⟨none, some (d.connTasks.length, true), none⟩, .iter ⟨some d.authTasks.length, none, none⟩]).sessions
        = d.sessions ++ [(c, rest)]) ∧
    ∀ i c w, d.authTasks[i]? = some c → hsServer f c.hs = .failed w →
      (d.iter ⟨some i, none, none⟩).active + 1 = d.active ∧ (d.iter ⟨some i, none, none⟩).authTasks = d.authTasks.eraseIdx i := by
  intro d
  obtain ⟨hinv, hmax, hauth⟩ := Pub.run_dinv acts ({ max, authn := some f } : Pub.Driver A)
  have hle := (hinv (Pub.new_dinv max (some f))).le
  have hm : d.max = max := hmax
  have ha : d.authn = some f := hauth
  constructor
  · intro c id w rest lost hadr hacc hroom
    obtain ⟨a, hadr⟩ := Option.isSome_iff_exists.1 hadr
    have e1 : d.iter ⟨none, none, some c⟩ = { d with active := d.active + 1, connTasks := d.connTasks ++ [c] } := by
      simp only [Pub.Driver.iter, Pub.Driver.stepJoin, Pub.Driver.stepConn, Pub.Driver.stepAccept, hm]
      cases hmx : max with
      | none => rfl
      | some n =>
        obtain ⟨h1, h2⟩ := hroom n hmx
        have hx := (C29_counter_exact_partial max (some f) acts).2 (fun e he g c' hg hc' => by cases hg; exact h2 e he c' hc')
        have hx' : d.active = d.connTasks.length + d.authTasks.length + d.sessions.length := hx
        simp only
        rw [if_neg (by omega)]
    simp only [Pub.Driver.run, List.foldl_cons, List.foldl_nil, Pub.Driver.act] at e1 ⊢
    rw [e1]
    clear e1 hroom hle hinv hmax hauth
    revert hm ha
    generalize d = d
    cases d
    intro hm ha
    simp only at hm ha
    subst hm ha
    simp [Pub.Driver.iter, Pub.Driver.stepJoin, Pub.Driver.stepConn, Pub.Driver.onIncoming, hadr, hacc]
  · intro i c w hc hf
    have hl := Pub.eraseIdx_len hc
    have hle' : d.connTasks.length + d.authTasks.length + d.sessions.length ≤ d.active := hle
    simp only [Pub.Driver.iter, Pub.Driver.stepJoin, ha, hc, hf]
    refine ⟨?_, trivial⟩
    rw [Pub.decr_pos (by omega)]; omega

/-- C111 (partial), reply socket: in every history, whatever the other clients did, a client that authenticates is served when it connects while the number of clients
counted is below `max_clients`; without `max_clients` always. That number is at least that of the connections there, those that have not authenticated included, and
`C29_reply_counter_exact_partial` says when they are equal. And a connected client whose handshake fails gives its place back. Missing: clients that are there without
authenticating count like the others, for which the property is false (`C111_reply_lockout_refuted`). -/
theorem C111_reply_room_partial [DecidableEq A] (D : Decompressors) (max : Option Nat) (f : Bytes → Bool) (comp : Option Compressor) (acts : List (Rep.Act A))
    (d : Rep.Driver A) (h : (Rep.Driver.new max (some f) comp : Rep.Driver A).run D acts = .ok d) :
    (∀ (c : Conn A) id w rest lost, c.addr.isSome → hsServer f c.hs = .accepted id w rest lost → (∀ n, max = some n → d.active < n) →
      ∃ d' p, d.run D [.accept c, .ready d.connTasks.length true, .join d.authTasks.length] = .ok d' ∧
        p ∈ d'.peers ∧ p.uid = c.uid ∧ some p.addr = c.addr ∧ p.input0 = rest ∧
        ∀ q ∈ d.peers, some q.addr ≠ c.addr → q ∈ d'.peers) ∧
    ∀ i c w, d.authTasks[i]? = some c → hsServer f c.hs = .failed w →
      ∃ d', d.act D (.join i) = .ok d' ∧ d'.active + 1 = d.active ∧ d'.authTasks = d.authTasks.eraseIdx i ∧ d'.peers = d.peers := by
  obtain ⟨-, hm, ha⟩ := Rep.run_adm acts (Rep.new_inv D max (some f) comp) (Rep.new_ainv ..) h
  have hle := (C29_reply_counter_exact_partial D max (some f) comp acts d h).1
  have hm : d.max = max := hm
  have ha : d.authn = some f := ha
  constructor
  · intro c id w rest lost hadr hacc hroom
    obtain ⟨a, hadr⟩ := Option.isSome_iff_exists.1 hadr
    have e1 : d.stepAccept c = { d with active := d.active + 1, connTasks := d.connTasks ++ [c] } := by
      simp only [Rep.Driver.stepAccept, hm]
      cases hmx : max with
      | none => rfl
      | some n =>
        have := hroom n hmx
        simp only
        rw [if_neg (by omega)]
    have e2 : ({ d with active := d.active + 1, connTasks := d.connTasks ++ [c] } : Rep.Driver A).stepConn d.connTasks.length true
        = { d with active := d.active + 1, authTasks := d.authTasks ++ [c] } := by
      cases d
      simp only at ha
      subst ha
      simp [Rep.Driver.stepConn, hadr, List.eraseIdx_append_of_length_le]
    have e3 : ({ d with active := d.active + 1, authTasks := d.authTasks ++ [c] } : Rep.Driver A).stepJoin d.authTasks.length
        = Rep.Driver.insertPeer { d with active := d.active + 1 } (Rep.Peer.new c.uid a rest) := by
      cases d
      simp only at ha
      subst ha
      simp [Rep.Driver.stepJoin, hadr, hacc, List.eraseIdx_append_of_length_le]
    refine ⟨Rep.Driver.insertPeer { d with active := d.active + 1 } (Rep.Peer.new c.uid a rest), Rep.Peer.new c.uid a rest, ?_, ?_, rfl, ?_, rfl, ?_⟩
    · simp only [Rep.Driver.run, Rep.Driver.act, bind, R.bind, e1, e2, e3]
    · simp [Rep.Driver.insertPeer]
    · rw [hadr]; rfl
    · intro q hq hne
      rw [hadr] at hne
      simp only [Rep.Driver.insertPeer, List.mem_append, List.mem_filter]
      exact .inl ⟨hq, decide_eq_true (fun he : q.addr = a => hne (congrArg some he))⟩
  · intro i c w hc hf
    have hl := Pub.eraseIdx_len hc
    refine ⟨_, rfl, ?_⟩
    simp only [Rep.Driver.stepJoin, ha, hc, hf]
    refine ⟨?_, trivial, trivial⟩
    rw [Pub.decr_pos (by omega)]; omega

/-- With `max_clients = 2`, two silent clients lock out a third one that has the right token; once one of them hangs up, the third is served. -/
example :
    let silent : Nat → Conn Nat := fun u => ⟨u, some u, ⟨[], [], [], []⟩⟩
    let leaves : Conn Nat := ⟨1, some 1, ⟨[.pending, .data [], .data []], [], [], []⟩⟩
    let good : Conn Nat := ⟨3, some 3, ⟨[.data (Spec.authBytes [7])], [.ok 2, .ok 1], [.ok 1], []⟩⟩
    let offer : List (Pub.DAct Nat) := [.iter ⟨none, none, some good⟩, .iter ⟨none, some (0, true), none⟩]
    let d0 : Pub.Driver Nat := { max := some 2, authn := some (· == [7]) }
    (∀ c ∈ [silent 1, silent 2], Silent (· == [7]) c) ∧
    ((d0.run ((pubArrive [silent 1, silent 2]).map .iter)).run (offer ++ [.iter ⟨some 2, none, none⟩])).sessions = [] ∧
    ((d0.run ((pubArrive [leaves, silent 2]).map .iter ++ [.iter ⟨some 0, none, none⟩])).run (offer ++ [.iter ⟨some 1, none, none⟩])).sessions = [(good, [])] := by
  refine ⟨?_, rfl, rfl⟩
  intro c hc
  simp only [List.mem_cons, List.not_mem_nil, or_false] at hc
  rcases hc with rfl | rfl <;> exact silent_nothing ..

end MsgRs.Props
