import Verif.Props.RepServer
import Verif.Proofs.RepFlush
/-!
# Serving requests, for every history of the reply socket itself

`Props/Rep.lean` speaks of histories of a bound reply socket that is never dropped (`Rep.Driver`). Here the same guarantees for every
history of the socket: bound (or not), polled, served by its background task, and dropped at any moment.
-/
namespace MsgRs.Props
open MsgRs Rep
variable {A : Type} [DecidableEq A]

omit [DecidableEq A] in
/-- A request that has been answered had been received by the application. -/
theorem inv_answered_taken {D : Decompressors} {d : Driver A} (hd : DInv D d none) {p : Peer A} (hp : p ∈ d.conns)
    {x : Nat} {rq : ReqRep.Message} (hi : (x, rq) ∈ p.issued) {b : Bytes} (hs : d.slots x = .responded b) :
    ∃ r ∈ d.taken, r.handle = x ∧ r.source = p.addr ∧ tryDecompress D rq.header.ctype rq.payload = some r.msg := by
  obtain ⟨f, hf⟩ := hd.issued p hp x rq hi
  cases f with
  | undecodable => rcases hd.dropped _ _ _ _ hf (by intro; simp) with h1 | h1 <;> simp [hs] at h1
  | full => rcases hd.dropped _ _ _ _ hf (by intro; simp) with h1 | h1 <;> simp [hs] at h1
  | delivered pl =>
    have hm : (x, pl) ∈ deliveredOf d.log := List.mem_filterMap.mpr ⟨_, hf, rfl⟩
    rw [← hd.inbox] at hm
    obtain ⟨r, hr, he⟩ := List.mem_map.mp hm
    obtain ⟨rfl, rfl⟩ := Prod.mk.inj he
    have hr' := hr
    rw [List.mem_append] at hr
    rcases hr with hr | hr
    · exact ⟨r, hr, rfl, hd.source p hp _ _ hi r hr' rfl, hd.delivered _ _ _ _ hf⟩
    · have := hd.waiting r (.inr hr)
      rw [hs] at this
      cases this

/-- What was taken from the channel stays on record. -/
theorem act_taken {D : Decompressors} {d d' : Driver A} (a : Act A) (h : d.act D a = .ok d') : d.taken <+: d'.taken := by
  have same : d'.taken = d.taken → d.taken <+: d'.taken := fun he => he ▸ List.prefix_refl _
  cases a with
  | peer k e =>
    simp only [Driver.act, Driver.stepPeer] at h
    cases hk : d.peers[k]? with
    | none => simp only [hk] at h; cases h; exact same rfl
    | some p =>
      simp only [hk] at h
      cases hit : p.iter d.comp d.slots d.next e with
      | panic => rw [hit] at h; cases h
      | ok r =>
        obtain ⟨p', o⟩ := r
        simp only [hit, R.bind_ok, R.pure_eq] at h
        cases o with
        | request x m =>
          cases h
          apply same
          simp only [Driver.onRequest]
          split
          · rfl
          · split <;> rfl
        | sent m => cases h; exact same rfl
        | queued => cases h; exact same rfl
        | error => cases h; exact same rfl
        | closed => cases h; exact same rfl
        | pending => cases h; exact same rfl
  | join i =>
    cases h
    show d.taken <+: (d.stepJoin i).taken
    apply same
    unfold Driver.stepJoin
    split
    · dsimp only
      split <;> rfl
    · rfl
  | ready i ok =>
    cases h
    apply same
    show (d.stepConn i ok).taken = d.taken
    unfold Driver.stepConn
    split
    · rfl
    · dsimp only
      split
      · split
        · rfl
        · split <;> rfl
      · rfl
  | accept c =>
    cases h
    apply same
    show (d.stepAccept c).taken = d.taken
    unfold Driver.stepAccept
    split
    · split <;> rfl
    · rfl
  | recv =>
    simp only [Driver.act] at h
    split at h
    · cases h; exact same rfl
    · cases h; exact List.prefix_append ..
  | respond i b =>
    simp only [Driver.act] at h
    split at h <;> (cases h; exact same rfl)
  | drop i =>
    simp only [Driver.act] at h
    split at h <;> (cases h; exact same rfl)

/-- Whatever is done with the socket, what was taken from the channel stays on record. -/
theorem sock_act_taken {D : Decompressors} {s s' : Rep.Socket A} (hi : SockInv D s) (a : Rep.SAct A) (h : s.act D a = .ok s') (d : Driver A)
    (hd : s.drv = some d) : ∃ d', s'.drv = some d' ∧ d.taken <+: d'.taken := by
  have drv : ∀ x, (match s.drv with
      | none => R.ok s
      | some d => do let d ← d.act D x; return { s with drv := some d }) = .ok s' → ∃ d', s'.drv = some d' ∧ d.taken <+: d'.taken := by
    intro x hx
    rw [hd] at hx
    simp only at hx
    cases hy : d.act D x with
    | panic => rw [hy] at hx; cases hx
    | ok d' => rw [hy] at hx; cases hx; exact ⟨d', rfl, act_taken x hy⟩
  cases a with
  | bind b as =>
    simp only [Rep.Socket.act] at h
    split at h
    · cases h; exact ⟨d, hd, List.prefix_refl _⟩
    · have : s.transport = none := by
        cases ht : s.transport with
        | none => rfl
        | some c => have := (hi.transport (by simp [ht])).1; rw [hd] at this; cases this
      simp only [Rep.Socket.tryBind, this] at h
      cases h
      exact ⟨d, hd, List.prefix_refl _⟩
  | next =>
    simp only [Rep.Socket.act] at h
    split at h
    · cases h; exact ⟨d, hd, List.prefix_refl _⟩
    · simp only [Rep.Socket.pollNext, hd] at h
      cases hin : d.inbox with
      | nil => rw [hin] at h; cases h; exact ⟨d, hd, List.prefix_refl _⟩
      | cons r rs => rw [hin] at h; cases h; exact ⟨_, rfl, List.prefix_append ..⟩
  | drop =>
    simp only [Rep.Socket.act] at h
    split at h
    · cases h; exact ⟨d, hd, List.prefix_refl _⟩
    · cases h
      obtain ⟨h1, h2, -⟩ := hi.drv d hd
      refine ⟨d.closeInbox, by simp [hd], ?_⟩
      rw [(closeInbox_inv h1 h2).2.2.2.2.2.2.1]
      exact List.prefix_append ..
  | driver a =>
    cases a with
    | recv => cases h; exact ⟨d, hd, List.prefix_refl _⟩
    | peer k e => exact drv _ h
    | join i => exact drv _ h
    | ready i ok => exact drv _ h
    | accept c => exact drv _ h
    | respond i b => exact drv _ h
    | drop i => exact drv _ h

theorem sock_run_taken {D : Decompressors} (acts : List (Rep.SAct A)) {s s' : Rep.Socket A} (hi : SockInv D s) (h : s.run D acts = .ok s') (d : Driver A)
    (hd : s.drv = some d) : ∃ d', s'.drv = some d' ∧ d.taken <+: d'.taken := by
  induction acts generalizing s d with
  | nil => cases h; exact ⟨d, hd, List.prefix_refl _⟩
  | cons a acts ih =>
    obtain ⟨s1, h1, h2⟩ := hi.act a
    simp only [Rep.Socket.run, h1, R.bind_ok] at h
    obtain ⟨d1, g1, g2⟩ := sock_act_taken hi a h1 d hd
    obtain ⟨d2, g3, g4⟩ := ih h2 h d1 g1
    exact ⟨d2, g3, g2.trans g4⟩

/-- The application answered request `x` with `b`. -/
def HasAnswer (x : Nat) (b : Bytes) (s : Rep.Socket A) : Prop := ∃ d, s.drv = some d ∧ d.slots x = .responded b

/-- Only a call of `respond` answers a request. -/
theorem sock_act_answers {D : Decompressors} {s s' : Rep.Socket A} (hi : SockInv D s) (a : Rep.SAct A) (h : s.act D a = .ok s') {x b}
    (h1 : HasAnswer x b s') (h0 : ¬ HasAnswer x b s) :
    ∃ i r d, a = .driver (.respond i b) ∧ s.drv = some d ∧ d.held[i]? = some r ∧ r.handle = x := by
  obtain ⟨d', hd', hs'⟩ := h1
  have drv : ∀ y, (match s.drv with
      | none => R.ok s
      | some d => do let d ← d.act D y; return { s with drv := some d }) = .ok s' →
      ∃ i r d, y = .respond i b ∧ s.drv = some d ∧ d.held[i]? = some r ∧ r.handle = x := by
    intro y hy
    cases hd : s.drv with
    | none => rw [hd] at hy; cases hy; rw [hd] at hd'; cases hd'
    | some d =>
      rw [hd] at hy
      simp only at hy
      cases hz : d.act D y with
      | panic => rw [hz] at hy; cases hy
      | ok e =>
        rw [hz] at hy
        cases hy
        cases hd'
        obtain ⟨i, r, g1, g2, g3⟩ := act_responded y hz hs' (fun hc => h0 ⟨d, hd, hc⟩)
        exact ⟨i, r, d, g1, rfl, g2, g3⟩
  have same : s' = s → ∃ i r d, a = .driver (.respond i b) ∧ s.drv = some d ∧ d.held[i]? = some r ∧ r.handle = x :=
    fun he => absurd ⟨d', he ▸ hd', hs'⟩ h0
  cases a with
  | bind bd as =>
    simp only [Rep.Socket.act] at h
    split at h
    · cases h; exact same rfl
    · unfold Rep.Socket.tryBind at h
      cases ht : s.transport with
      | none => rw [ht] at h; cases h; exact absurd ⟨d', hd', hs'⟩ h0
      | some cur =>
        rw [ht] at h
        simp only at h
        cases hb : Pub.bindLoop bd cur as with
        | none => rw [hb] at h; cases h; exact absurd ⟨d', hd', hs'⟩ h0
        | some l =>
          simp only [hb] at h
          by_cases hmx : 2 ^ 63 ≤ s.max.getD 64
          · rw [if_pos hmx] at h
            cases h
            exact absurd ⟨d', hd', hs'⟩ h0
          · rw [if_neg hmx] at h
            cases h
            cases hd'
            simp [Driver.new] at hs'
  | next =>
    simp only [Rep.Socket.act] at h
    split at h
    · cases h; exact same rfl
    · cases hd : s.drv with
      | none => simp only [Rep.Socket.pollNext, hd] at h; cases h; rw [hd] at hd'; cases hd'
      | some d =>
        simp only [Rep.Socket.pollNext, hd] at h
        cases hin : d.inbox with
        | nil => rw [hin] at h; cases h; exact absurd ⟨d', hd', hs'⟩ h0
        | cons r rs =>
          rw [hin] at h
          cases h
          cases hd'
          exact absurd ⟨d, hd, hs'⟩ h0
  | drop =>
    simp only [Rep.Socket.act] at h
    split at h
    · cases h; exact same rfl
    · cases h
      cases hd : s.drv with
      | none => simp [hd] at hd'
      | some d =>
        simp only [hd, Option.map_some, Option.some.injEq] at hd'
        subst hd'
        obtain ⟨g1, g2, -⟩ := hi.drv d hd
        rw [(closeInbox_inv g1 g2).2.2.2.2.2.2.2.2.2.1 x] at hs'
        split at hs'
        · cases hs'
        · exact absurd ⟨d, hd, hs'⟩ h0
  | driver a =>
    have lift : (∃ i r d, a = .respond i b ∧ s.drv = some d ∧ d.held[i]? = some r ∧ r.handle = x) →
        ∃ i r d, Rep.SAct.driver a = .driver (.respond i b) ∧ s.drv = some d ∧ d.held[i]? = some r ∧ r.handle = x := by
      rintro ⟨i, r, d, rfl, g⟩
      exact ⟨i, r, d, rfl, g⟩
    cases a with
    | recv => cases h; exact same rfl
    | peer k e => exact lift (drv _ h)
    | join i => exact lift (drv _ h)
    | ready i ok => exact lift (drv _ h)
    | accept c => exact lift (drv _ h)
    | respond i b => exact lift (drv _ h)
    | drop i => exact lift (drv _ h)

/-- The moment a request was answered. -/
theorem sock_answered {D : Decompressors} (acts : List (Rep.SAct A)) {s s' : Rep.Socket A} (hi : SockInv D s) (h : s.run D acts = .ok s') {x b}
    (h1 : HasAnswer x b s') (h0 : ¬ HasAnswer x b s) :
    ∃ pre i post s0 d0 r, acts = pre ++ .driver (.respond i b) :: post ∧ s.run D pre = .ok s0 ∧ s0.drv = some d0 ∧
      d0.held[i]? = some r ∧ r.handle = x := by
  induction acts generalizing s with
  | nil => cases h; exact absurd h1 h0
  | cons a acts ih =>
    obtain ⟨s1, g1, g2⟩ := hi.act a
    simp only [Rep.Socket.run, g1, R.bind_ok] at h
    rcases Classical.em (HasAnswer x b s1) with hp | hp
    · obtain ⟨i, r, d, rfl, k1, k2, k3⟩ := sock_act_answers hi a g1 hp h0
      exact ⟨[], i, acts, s, d, r, rfl, rfl, k1, k2, k3⟩
    · obtain ⟨pre, i, post, s0, d0, r, rfl, k1, k2, k3, k4⟩ := ih g2 h hp
      exact ⟨a :: pre, i, post, s0, d0, r, rfl, by simp [Rep.Socket.run, g1, k1], k2, k3, k4⟩

/-- C42 for every history of a reply socket, bound and dropped at any moment: for every connection its background task ever served, the bytes written to it are a
prefix of the encodings of its answers, in order; every answer answers a request read from that very connection and carries its id; its payload is what
the application passed to `respond`, on a request it had received with the connection's address as its source and the decompressed payload; no request is
answered twice, and none belongs to two connections. -/
theorem C42_reply_socket (D : Decompressors) (max authn comp) (acts : List (Rep.SAct A)) (s : Rep.Socket A)
    (h : (Rep.Socket.new max authn comp : Rep.Socket A).run D acts = .ok s) (d : Driver A) (hd : s.drv = some d) (p : Peer A) (hp : p ∈ d.conns) :
    p.wr.wire <+: (p.answers.map (·.2)).flatMap ReqRep.encode ∧
    (p.answers.map (·.1)).Nodup ∧
    (∀ x m, (x, m) ∈ p.answers → ∃ rq b, (x, rq) ∈ p.issued ∧ replyPrepare comp rq.header.id b = some m ∧ m.header.id = rq.header.id ∧
      ∃ pre i post s0 d0 r, acts = pre ++ .driver (.respond i b) :: post ∧ (Rep.Socket.new max authn comp : Rep.Socket A).run D pre = .ok s0 ∧
        s0.drv = some d0 ∧ d0.held[i]? = some r ∧ r.handle = x ∧ r.source = p.addr ∧ tryDecompress D rq.header.ctype rq.payload = some r.msg) ∧
    (∀ q ∈ d.conns, ∀ x m m', (x, m) ∈ p.issued → (x, m') ∈ q.issued → q.uid = p.uid) := by
  have hreach : RepReach D max authn comp s := ⟨acts, h⟩
  have hsi := hreach.inv
  obtain ⟨hdi, -, hdc⟩ := hsi.drv d hd
  have hcomp : d.comp = comp := by rw [hdc]; exact (served_run acts h).2.2.1
  have hc : PCore d.comp d.slots d.next p := by
    simp only [Driver.conns, List.mem_append] at hp
    exact hp.elim (fun hp => (hdi.peers p hp).1) (hdi.gone p)
  refine ⟨?_, ?_, ?_, ?_⟩
  · rw [← hc.out, List.flatMap_append, ← hc.bytes, List.append_assoc]
    exact List.prefix_append ..
  · exact (List.nodup_append.mp hc.once).1
  · intro x m hm
    obtain ⟨rq, b, h1, h2, h3⟩ := hc.answers x m hm
    rw [hcomp] at h3
    refine ⟨rq, b, h1, h3, ?_, ?_⟩
    · simp only [replyPrepare] at h3
      split at h3
      · split at h3
        · cases h3; rfl
        · cases h3
      · cases h3; rfl
    · obtain ⟨pre, i, post, s0, d0, r, he, k1, k2, k3, k4⟩ := sock_answered acts (SockInv.new D max authn comp) h (x := x) (b := b) ⟨d, hd, h2⟩
        (by rintro ⟨d, hd, -⟩; cases hd)
      refine ⟨pre, i, post, s0, d0, r, he, k1, k2, k3, k4, ?_⟩
      obtain ⟨r', g1, g2, g3, g4⟩ := inv_answered_taken hdi hp h1 h2
      have hs0 : SockInv D s0 := RepReach.inv ⟨pre, k1⟩
      have hin0 : r ∈ d0.taken := (hs0.drv d0 k2).1.held.mem (List.mem_of_getElem? k3)
      rw [he, sock_run_append, k1] at h
      simp only [R.bind_ok] at h
      obtain ⟨d2, g5, g6⟩ := sock_run_taken _ hs0 h d0 k2
      rw [hd] at g5
      cases g5
      have hin : r ∈ d.taken := g6.mem hin0
      have hnd := hdi.handles.1
      have : r' = r := List.nodup_map_inj hnd (List.mem_append_left _ g1) (List.mem_append_left _ hin) (g2.trans k4.symm)
      subst this
      exact ⟨g3, g4⟩
  · intro q hq x m m' h1 h2
    obtain ⟨f, hf⟩ := hdi.issued p hp x m h1
    obtain ⟨f', hf'⟩ := hdi.issued q hq x m' h2
    have hn : (d.log.map (·.2.1)).Nodup := by rw [hdi.log]; exact List.nodup_range
    have := (List.nodup_map_inj hn hf hf' rfl)
    exact (congrArg (·.1) this).symm

/-- C45 for every history of a reply socket (partial): a request whose payload cannot be decompressed is never handed to the application and never answered on
any connection. Missing: promptness of other responses on the same connection (`C45_delays_response_refuted`). -/
theorem C45_reply_socket_partial (D : Decompressors) (max authn comp) (s : Rep.Socket A) (h : RepReach D max authn comp s) (d : Driver A)
    (hd : s.drv = some d) (p : Peer A) (hp : p ∈ d.conns) (x : Nat) (m : ReqRep.Message) (hx : (x, m) ∈ p.issued)
    (hbad : tryDecompress D m.header.ctype m.payload = none) :
    (∀ r ∈ d.taken ++ d.inbox, r.handle ≠ x) ∧ ∀ q ∈ d.conns, x ∉ q.answers.map (·.1) := by
  obtain ⟨hdi, -, -⟩ := h.inv.drv d hd
  obtain ⟨f, hf⟩ := hdi.issued p hp x m hx
  have hn : (d.log.map (·.2.1)).Nodup := by rw [hdi.log]; exact List.nodup_range
  have hfu : f = .undecodable := by
    cases f with
    | undecodable => rfl
    | delivered pl => have := hdi.delivered _ _ _ _ hf; rw [hbad] at this; cases this
    | full => have := hdi.full _ _ _ hf; rw [hbad] at this; cases this
  subst hfu
  have hsl : d.slots x = .dropped := by
    rcases hdi.dropped _ _ _ _ hf (by intro; simp) with h1 | h1
    · exact h1
    · cases h1
  constructor
  · intro r hr he
    have : (r.handle, r.msg) ∈ deliveredOf d.log := by
      rw [← hdi.inbox]; exact List.mem_map.mpr ⟨r, hr, rfl⟩
    obtain ⟨y, hy, hye⟩ := List.mem_filterMap.mp this
    obtain ⟨u, z, m', f⟩ := y
    cases f with
    | undecodable => cases hye
    | full => cases hye
    | delivered pl =>
      cases hye
      have := List.nodup_map_inj hn hy hf he
      cases this
  · intro q hq hxq
    obtain ⟨⟨y, m'⟩, hy, rfl⟩ := List.mem_map.mp hxq
    have hc : PCore d.comp d.slots d.next q := by
      simp only [Driver.conns, List.mem_append] at hq
      exact hq.elim (fun hq => (hdi.peers q hq).1) (hdi.gone q)
    obtain ⟨rq, b, -, h2, -⟩ := hc.answers y m' hy
    rw [hsl] at h2
    cases h2

omit [DecidableEq A] in
theorem Bounded.closeInbox {d : Driver A} (h : Bounded d) : Bounded d.closeInbox := by
  have key : ∀ (l : List (Request A)) (e : Driver A), Bounded e → Bounded (l.foldl (fun d r => d.complete r.handle .dropped) e) := by
    intro l
    induction l with
    | nil => intro e h; exact h
    | cons r l ih => intro e h; exact ih _ (h.complete _ _)
  exact key _ _ h

/-- C71 for every history of a reply socket: whenever its background task's poll of a connection returns `Pending`, all responses queued on it are on the wire, whole
and in order; or the connection was offered the bytes still buffered during this poll and did not take them all. -/
theorem C71_reply_socket (D : Decompressors) (max authn comp) (s : Rep.Socket A) (h : RepReach D max authn comp s) (d : Driver A)
    (hd : s.drv = some d) (p : Peer A) (hp : p ∈ d.peers) (es : List PEnv) (p' : Peer A)
    (hpoll : p.poll d.comp d.slots d.next es = .ok (some (p', .pending))) :
    (p'.egress = [] ∧ p'.wr.wire = (p'.answers.map (·.2)).flatMap ReqRep.encode) ∨
    ∃ e ∈ es, ∃ w : Writer, w.buf ≠ [] ∧ w.wire ++ w.buf = p'.wr.wire ++ p'.wr.buf ∧ (w.flush e.flushAns).1 ≠ .ok := by
  obtain ⟨hdi, -, -⟩ := h.inv.drv d hd
  obtain ⟨hc, hl⟩ := hdi.peers p hp
  obtain ⟨p0, e, h1, h2, h3, h4, h5, hs, h7, -⟩ := poll_last es hc hl (hdi.future _ (Nat.le_refl _)) hpoll
  have hcore : PCore d.comp d.slots d.next p' := hs.core
  have hbd : Bounded d := by
    obtain ⟨acts, hr⟩ := h
    exact sock_induct (Q := fun _ => True) (P := Bounded) (fun p hp => by cases hp) (fun d a d' _ h1 _ h2 => h1.act h2)
      (fun d h => Bounded.closeInbox h) acts _ s (SockInv.new D max authn comp) rfl rfl rfl (by intro d hd; cases hd) (fun _ _ => trivial) hr d hd
  have hb : p0.wr.boundary = 8192 := by
    rw [← hbd p hp, ← poll_boundary es hpoll]
    exact (iter_wr h5).1.symm
  rcases iter_flushed h2 hb h5 with ⟨k1, k2⟩ | ⟨k1, k2, k3⟩
  · left
    have hg := (hs.blocked rfl).resolve_right k2
    refine ⟨hg, ?_⟩
    have ho := hcore.out
    have hby := hcore.bytes
    rw [hg, List.append_nil] at ho
    rw [k1, List.append_nil, ho] at hby
    exact hby
  · exact .inr ⟨e, h7, p0.wr, k1, k2, k3⟩

/-- C43 for every history of a reply socket (partial): when its background task's poll of a connection returns `Pending` and none of the requests still waiting on
this connection has been dropped, then every request of this connection that the application has answered has its response queued (unless it cannot be compressed),
and the queue has been handed to the connection unless the connection does not accept data. Missing: with a dropped request in between, one more poll per dropped
request is needed, and nothing triggers it (`C43_drop_delays_response_refuted`). -/
theorem C43_reply_socket_partial (D : Decompressors) (max authn comp) (s : Rep.Socket A) (h : RepReach D max authn comp s) (d : Driver A)
    (hd : s.drv = some d) (p : Peer A) (hp : p ∈ d.peers) (es : List PEnv) (p' : Peer A)
    (hpoll : p.poll d.comp d.slots d.next es = .ok (some (p', .pending)))
    (hnodrop : ∀ x id, (x, id) ∈ p.pend → d.slots x ≠ .dropped)
    (x : Nat) (rq : ReqRep.Message) (b : Bytes) (hx : (x, rq) ∈ p.issued) (hb : d.slots x = .responded b) :
    (replyPrepare comp rq.header.id b = none ∨
      ∃ m, replyPrepare comp rq.header.id b = some m ∧ (x, m) ∈ p'.answers) ∧
    p'.sent ++ p'.egress = p'.answers.map (·.2) ∧
    (p'.egress = [] ∨ ∃ e ∈ es, ∃ w : Writer, (w.ready e.readyAns).1 = .pending) := by
  obtain ⟨hdi, -, hdc⟩ := h.inv.drv d hd
  have hcomp : d.comp = comp := by
    obtain ⟨acts, hr⟩ := h
    rw [hdc]
    exact (served_run acts hr).2.2.1
  obtain ⟨hc, hl⟩ := hdi.peers p hp
  obtain ⟨p0, e, h1, h2, h3, h4, h5, hs, h7, -⟩ := poll_last es hc hl (hdi.future _ (Nat.le_refl _)) hpoll
  have hcore : PCore d.comp d.slots d.next p' := hs.core
  obtain ⟨-, hw⟩ := hs.idle rfl (fun y hy => by
    obtain ⟨z, hz, rfl⟩ := List.mem_map.mp hy
    exact hnodrop z.1 z.2 (h4 z hz))
  have hi : p'.issued = p.issued := by rw [hs.issued, h3]; simp [POut.reqs]
  refine ⟨?_, hcore.out, ?_⟩
  · rcases hcore.done x rq (hi ▸ hx) with g | g | g | ⟨b', g1, g2⟩
    · obtain ⟨⟨y, m⟩, hy, rfl⟩ := List.mem_map.mp g
      obtain ⟨rq', b', g1, g2, g3⟩ := hcore.answers y m hy
      have hnd : (p'.issued.map (·.1)).Nodup := hcore.sorted.imp (fun hlt => by omega)
      have hx' : (y, rq) ∈ p'.issued := hi ▸ hx
      have := List.nodup_map_inj hnd g1 hx' rfl
      cases this
      rw [hb] at g2; cases g2
      exact .inr ⟨m, hcomp ▸ g3, hy⟩
    · have := hw x g; rw [hb] at this; cases this
    · rw [hb] at g; cases g
    · rw [hb] at g1; cases g1
      exact .inl (hcomp ▸ g2)
  · exact (hs.blocked rfl).imp (fun g => g) (fun g => ⟨e, h7, _, g⟩)

set_option maxHeartbeats 2000000 in
/-- A request is received, the socket is dropped, the request is answered afterwards: the answer is written to the connection; a second request, which
was still waiting in the socket, is not answered. All hypotheses above are met. -/
example (D : Decompressors) :
    let c : Conn Nat := ⟨1, some 1, ⟨[.data (reqBytes 5 [1] ++ reqBytes 6 [2]), .pending], [], [], []⟩⟩
    let e : PEnv := ⟨[.ok 100, .ok 1], []⟩
    ∃ s d p p', (Rep.Socket.new none none none : Rep.Socket Nat).run D [.bind some [7], .driver (.accept c), .driver (.ready 0 true),
        .driver (.peer 0 e), .driver (.peer 0 e), .next, .drop, .driver (.peer 0 e), .driver (.respond 0 [9])] = .ok s ∧
      s.dropped = true ∧ s.drv = some d ∧ d.peers = [p] ∧ d.slots 0 = .responded [9] ∧ d.slots 1 = .dropped ∧
      p.poll d.comp d.slots d.next [e, e, e] = .ok (some (p', .pending)) ∧ p'.wr.wire = reqBytes 5 [9] := by
  exact ⟨_, _, _, _, rfl, rfl, rfl, rfl, rfl, rfl, rfl, rfl⟩

end MsgRs.Props
