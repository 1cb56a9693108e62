import Verif.Proofs.RepOrigin
import Verif.Props.RepSocket
import Verif.Spec.SubRuns
/-!
# The reply socket as configured by its user: its limit and its authenticator hold for every history of the socket
-/
namespace MsgRs.Props
open MsgRs Rep
variable {A : Type} [DecidableEq A]

/-- What holds of a fresh driver, and is kept by everything that can happen to it, holds of the driver of every socket. `Q`: what is
known of the connections the listener reported. -/
theorem sock_induct {D : Decompressors} {max authn comp} {Q : Conn A → Prop} {P : Driver A → Prop}
    (new : P (Driver.new max authn comp))
    (act : ∀ d a d', DInv D d none → P d → (∀ c, a = .accept c → Q c) → d.act D a = .ok d' → P d')
    (close : ∀ d, P d → P d.closeInbox) :
    ∀ (acts : List (Rep.SAct A)) (s s' : Rep.Socket A), SockInv D s → s.max = max → s.authn = authn → s.comp = comp →
      (∀ d, s.drv = some d → P d) → (∀ c, .driver (.accept c) ∈ acts → Q c) → s.run D acts = .ok s' → ∀ d, s'.drv = some d → P d := by
  intro acts
  induction acts with
  | nil => intro s s' _ _ _ _ h _ hr; cases hr; exact h
  | cons a acts ih =>
    intro s s' hi h1 h2 h3 hP hQ hr
    obtain ⟨s1, ha, hi1⟩ := hi.act a
    simp only [Rep.Socket.run, ha, R.bind_ok] at hr
    have step : s1.max = max ∧ s1.authn = authn ∧ s1.comp = comp ∧ ∀ d, s1.drv = some d → P d := by
      have drv : ∀ x, (∀ c, x = .accept c → Q c) → (match s.drv with
          | none => R.ok s
          | some d => do let d ← d.act D x; return { s with drv := some d }) = .ok s1 →
          s1.max = max ∧ s1.authn = authn ∧ s1.comp = comp ∧ ∀ d, s1.drv = some d → P d := by
        intro x hxQ hx
        cases hd : s.drv with
        | none => rw [hd] at hx; cases hx; exact ⟨h1, h2, h3, hP⟩
        | some d =>
          rw [hd] at hx
          simp only at hx
          cases hy : d.act D x with
          | panic => rw [hy] at hx; cases hx
          | ok d' =>
            rw [hy] at hx
            cases hx
            refine ⟨h1, h2, h3, fun e he => ?_⟩
            cases he
            exact act d x d' (hi.drv d hd).1 (hP d hd) hxQ hy
      cases a with
      | bind bind addrs =>
        simp only [Rep.Socket.act] at ha
        split at ha
        · cases ha; exact ⟨h1, h2, h3, hP⟩
        · unfold Rep.Socket.tryBind at ha
          cases ht : s.transport with
          | none => rw [ht] at ha; cases ha; exact ⟨h1, h2, h3, hP⟩
          | some cur =>
            rw [ht] at ha
            simp only at ha
            cases hb : Pub.bindLoop bind cur addrs with
            | none => rw [hb] at ha; cases ha; exact ⟨h1, h2, h3, hP⟩
            | some l =>
              simp only [hb] at ha
              by_cases hmx : 2 ^ 63 ≤ s.max.getD 64
              · rw [if_pos hmx] at ha
                cases ha
                exact ⟨h1, h2, h3, hP⟩
              rw [if_neg hmx] at ha
              cases ha
              refine ⟨h1, h2, h3, fun d hd => ?_⟩
              cases hd
              rw [h1, h2, h3]
              exact new
      | next =>
        simp only [Rep.Socket.act] at ha
        split at ha
        · cases ha; exact ⟨h1, h2, h3, hP⟩
        · unfold Rep.Socket.pollNext at ha
          cases hd : s.drv with
          | none => rw [hd] at ha; cases ha; exact ⟨h1, h2, h3, hP⟩
          | some d =>
            rw [hd] at ha
            simp only at ha
            cases hin : d.inbox with
            | nil => rw [hin] at ha; cases ha; exact ⟨h1, h2, h3, hP⟩
            | cons r rs =>
              rw [hin] at ha
              cases ha
              refine ⟨h1, h2, h3, fun e he => ?_⟩
              cases he
              exact act d .recv _ (hi.drv d hd).1 (hP d hd) (fun c hc => by cases hc) (by simp only [Driver.act, hin])
      | driver x =>
        have hx : ∀ c, x = .accept c → Q c := fun c hc => hQ c (by simp [hc])
        cases x with
        | recv => cases ha; exact ⟨h1, h2, h3, hP⟩
        | peer k e => exact drv _ hx ha
        | join i => exact drv _ hx ha
        | ready i ok => exact drv _ hx ha
        | accept c => exact drv _ hx ha
        | respond i b => exact drv _ hx ha
        | drop i => exact drv _ hx ha
      | drop =>
        simp only [Rep.Socket.act] at ha
        split at ha
        · cases ha; exact ⟨h1, h2, h3, hP⟩
        · cases ha
          refine ⟨h1, h2, h3, fun e he => ?_⟩
          cases hd : s.drv with
          | none => rw [hd] at he; cases he
          | some d => rw [hd] at he; cases he; exact close d (hP d hd)
    exact ih s1 s' hi1 step.1 step.2.1 step.2.2.1 step.2.2.2 (fun c hc => hQ c (by simp [hc])) hr

omit [DecidableEq A] in
theorem closeInbox_keeps (d : Driver A) : Keeps d d.closeInbox ∧ Same d d.closeInbox := by
  have key : ∀ (l : List (Request A)) (e : Driver A), Keeps d e ∧ Same d e →
      Keeps d (l.foldl (fun d r => d.complete r.handle .dropped) e) ∧ Same d (l.foldl (fun d r => d.complete r.handle .dropped) e) := by
    intro l
    induction l with
    | nil => intro e h; exact h
    | cons r l ih => intro e h; exact ih _ ⟨h.1.trans (complete_keeps _ _ _), h.2.trans (complete_same _ _ _)⟩
  exact key _ _ ⟨⟨rfl, rfl, rfl, rfl, rfl, rfl, fun p hp => ⟨p, hp, rfl⟩⟩, ⟨rfl, rfl, rfl, fun p hp => ⟨p, hp, rfl, rfl, rfl⟩⟩⟩

/-- C28 for the socket as its user configured it: with `max_clients = n`, whatever is done with the socket (bound, polled, dropped), at most `n` connections are
being accepted, authenticated or served. -/
theorem C28_reply_socket (D : Decompressors) (n : Nat) (authn comp) (s : Rep.Socket A) (h : RepReach D (some n) authn comp s) (d : Driver A)
    (hd : s.drv = some d) : d.connTasks.length + d.authTasks.length + d.peers.length ≤ n := by
  obtain ⟨acts, hr⟩ := h
  have := sock_induct (Q := fun _ => True) (P := fun d : Driver A => AInv d ∧ d.max = some n) (D := D) (max := some n) (authn := authn) (comp := comp)
    ⟨new_ainv .., rfl⟩
    (fun d a d' hi hP _ ha => by
      obtain ⟨g1, g2, -⟩ := act_adm hi hP.1 a ha
      exact ⟨g1, g2.trans hP.2⟩)
    (fun d hP => ⟨(closeInbox_keeps d).1.ainv hP.1, (closeInbox_keeps d).1.max.trans hP.2⟩)
    acts _ s (SockInv.new D _ _ _) rfl rfl rfl (fun d hd => by cases hd) (fun _ _ => trivial) hr d hd
  exact Nat.le_trans this.1.le (this.1.max n this.2)

/-- C30 for the socket as its user configured it: with an authenticator, whatever is done with the socket, every request its user ever received (or has waiting) was
read from a connection whose client sent a token the authenticator accepts, and from what that client sent after the token. -/
theorem C30_reply_socket (D : Decompressors) (max) (f : Bytes → Bool) (comp) (acts : List (Rep.SAct A)) (s : Rep.Socket A)
    (h : (Rep.Socket.new max (some f) comp : Rep.Socket A).run D acts = .ok s) (d : Driver A) (hd : s.drv = some d)
    (r : Request A) (hr : r ∈ d.taken ++ d.inbox) :
    ∃ p ∈ d.conns, (∃ m, (r.handle, m) ∈ p.issued ∧ tryDecompress D m.header.ctype m.payload = some r.msg) ∧ r.source = p.addr ∧
    ∃ c id pre lost, .driver (.accept c) ∈ acts ∧ c.uid = p.uid ∧ c.addr = some p.addr ∧ f id = true ∧
      c.hs.reads = pre ++ p.input0 ∧ dataOf pre = Spec.authBytes id ++ lost := by
  have hreach : RepReach D max (some f) comp s := ⟨acts, h⟩
  obtain ⟨hv, ho, -⟩ := hreach.inv.drv d hd
  have hO := sock_induct (Q := fun c => .driver (.accept c) ∈ acts) (P := fun d : Driver A => (OInv (fun c => .driver (.accept c) ∈ acts) d ∧ AInv d) ∧ d.authn = some f) (D := D)
    (max := max) (authn := some f) (comp := comp)
    ⟨⟨⟨by simp [Driver.new], by simp [Driver.new], by simp [Driver.new, Driver.conns]⟩, new_ainv ..⟩, rfl⟩
    (fun d a d' hi hP hQ ha => by
      obtain ⟨g1, -, g3, -⟩ := act_adm hi hP.1.2 a ha
      exact ⟨⟨act_oinv hi hP.1.1 a hQ ha, g1⟩, g3.trans hP.2⟩)
    (fun d hP => ⟨⟨(closeInbox_keeps d).2.oinv hP.1.1, (closeInbox_keeps d).1.ainv hP.1.2⟩, (closeInbox_keeps d).1.authn.trans hP.2⟩)
    acts _ s (SockInv.new D _ _ _) rfl rfl rfl (fun d hd => by cases hd) (fun _ h => h) h d hd
  have hlt := hv.handles.2 r.handle (List.mem_map.2 ⟨r, hr, rfl⟩)
  obtain ⟨p, hp, hx⟩ := List.mem_flatMap.1 (ho.mem_iff.2 (List.mem_range.2 hlt))
  obtain ⟨⟨x, m⟩, hm, hxe⟩ := List.mem_map.1 hx
  simp only at hxe
  subst hxe
  refine ⟨p, hp, ⟨m, hm, ?_⟩, hv.source p hp r.handle m hm r hr rfl, ?_⟩
  · obtain ⟨g, hf⟩ := hv.issued p hp r.handle m hm
    have h1 : (r.handle, r.msg) ∈ deliveredOf d.log := by
      rw [← hv.inbox]
      exact List.mem_map.2 ⟨r, hr, rfl⟩
    obtain ⟨⟨u, y, m', f'⟩, h2, h3⟩ := List.mem_filterMap.1 h1
    cases f' with
    | undecodable => cases h3
    | full => cases h3
    | delivered pl =>
      simp only [Option.some.injEq, Prod.mk.injEq] at h3
      obtain ⟨rfl, rfl⟩ := h3
      have hn : (d.log.map (·.2.1)).Nodup := by rw [hv.log]; exact List.nodup_range
      have := List.nodup_map_inj hn hf h2 rfl
      cases this
      exact hv.delivered _ _ _ _ h2
  · obtain ⟨c, hc, hu, ha, hl⟩ := hO.1.1.src p hp
    rw [hO.2] at hl
    obtain ⟨id, wire, lost, hl⟩ := hl
    have := C30_handshake f c.hs
    rw [hl] at this
    obtain ⟨hf, -, -, pre, hq, hdt⟩ := this
    exact ⟨c, id, pre, lost, hc, hu, ha, hf, hq, hdt⟩

/-- The hypotheses are met: a socket with a limit of two clients and an authenticator; of three clients one is turned away, one has a bad token, and the request of
the third is received. -/
example :
    let hs : Bytes → HsEnv := fun tok => ⟨[.data (Spec.authBytes tok), .pending, .data (reqBytes 5 [1])], [.ok 2, .ok 1], [.ok 1], [.ok 1]⟩
    let c : Nat → Bytes → Conn Nat := fun u tok => ⟨u, some u, hs tok⟩
    let e : PEnv := ⟨[.ok 100, .ok 1], []⟩
    let acts : List (Rep.SAct Nat) := [.bind some [4], .driver (.accept (c 1 [7])), .driver (.accept (c 2 [8])), .driver (.accept (c 3 [7])), .driver (.ready 0 true), .driver (.ready 0 true),
      .driver (.join 0), .driver (.join 0), .driver (.peer 0 e), .driver (.peer 0 e), .next]
    ∃ s d, (Rep.Socket.new (some 2) (some fun t => t == [7]) none : Rep.Socket Nat).run noDec acts = .ok s ∧ s.drv = some d ∧
      d.taken = [⟨0, 1, [1]⟩] ∧ d.peers.length = 1 ∧ d.active = 1 := by
  refine ⟨_, _, rfl, rfl, by decide +kernel, by decide +kernel, by decide +kernel⟩

end MsgRs.Props
