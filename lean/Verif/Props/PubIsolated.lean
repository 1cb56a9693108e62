import Verif.Proofs.PubAlone
/-!
# C116: subscribers of a publisher do not affect each other
-/
namespace MsgRs.Props
open MsgRs MsgRs.Pub Spec

/-- C116: take any two histories of two publishers with the same options for messages (compressor, smallest size to compress, sizes of buffers; the limits, the authenticators and all the other
subscribers may be different), and a session in each, whose subscribers send the same. If the two histories agree in what concerns these sessions (`subView`: what was published since the session
was started, when it was polled, how its connection took the writes), then the two are in the same state: the same was read, the same messages were taken and missed, the same subscriptions
are in force, the same bytes were written. Nothing else in the histories matters: what other subscribers ask for, how many there are, how slow they are, what was published before. -/
theorem C116_isolated {A B : Type} (L : Lossy) (boundary minCompress bufferSize : Nat) (comp : Option Compressor)
    (max max' authn authn') (acts : List (SrvAct A)) (acts' : List (SrvAct B)) (i i' : Nat) (x : Ses A) (x' : Ses B)
    (hx : ((Server.new max authn boundary minCompress bufferSize comp : Server A).run L acts).ses[i]? = some x)
    (hx' : ((Server.new max' authn' boundary minCompress bufferSize comp : Server B).run L acts').ses[i']? = some x')
    (hin : x.input = x'.input)
    (hview : subView L i (Server.new max authn boundary minCompress bufferSize comp) acts
      = subView L i' (Server.new max' authn' boundary minCompress bufferSize comp) acts') :
    x.task.sess = x'.task.sess ∧ x.task.evs = x'.task.evs ∧ x.task.over = x'.task.over := by
  obtain ⟨-, -, c, vs, h1, h2⟩ := reach_lone (L := L) acts (new_chanInv max authn boundary minCompress bufferSize comp) (Nat.zero_le _) hx
  obtain ⟨-, -, c', vs', g1, g2⟩ := reach_lone (L := L) acts' (new_chanInv max' authn' boundary minCompress bufferSize comp) (Nat.zero_le _) hx'
  rw [hview, g1] at h1
  cases h1
  obtain ⟨-, -, -, -, -, k, y, -, -, -, -, -, -, -, hy, -, h7⟩ := h2
  obtain ⟨-, -, -, -, -, k', y', -, -, -, -, -, -, -, hy', -, g7⟩ := g2
  rw [hx] at hy; cases hy
  rw [hx'] at hy'; cases hy'
  rw [hin] at h7
  rw [h7, g7]
  exact ⟨rfl, rfl, rfl⟩

/-- The calls and polls of a view as actions of a publisher with one session. -/
def loneAct : SubEv → Option (SrvAct Unit)
  | .started _ => none
  | .published c => some (if c.viaTry then .tryPublish c.topic c.payload else .publish c.topic c.payload)
  | .polled e => some (.session 0 e)
  | .dropped => some .drop

/-- What the view of a session that has been started looks like. `d`: the socket has been dropped. -/
def wf : Bool → List SubEv → Prop
  | _, [] => True
  | _, .started _ :: _ => False
  | d, .published _ :: vs => d = false ∧ wf d vs
  | d, .polled e :: vs => e.feed = .pending ∧ wf d vs
  | d, .dropped :: vs => d = false ∧ wf true vs

theorem record_same (s : Server A) (m r) : (s.record m r).ses = s.ses ∧ (s.record m r).dropped = s.dropped := by
  rcases r with ⟨_ | _, _⟩ <;> exact ⟨rfl, rfl⟩

/-- An action and the number of sessions. -/
theorem act_len (L : Lossy) (s : Server A) (a : SrvAct A) : s.ses.length ≤ (s.act L a).ses.length ∧ ((s.act L a).dropped = true ↔ s.dropped = true ∨ a = .drop) ∧
    ((∀ e, a ≠ .driver e) → (s.act L a).ses.length = s.ses.length) := by
  cases a with
  | bind bind addrs =>
    simp only [Server.act]
    split
    · simp
    · split <;> simp
  | publish t p =>
    simp only [Server.act]
    split
    · simp
    · have := record_same s (publishPrepare s.sock.minCompress s.sock.comp t p) (s.sock.publish t p)
      simp [this.1, this.2]
  | tryPublish t p =>
    simp only [Server.act]
    split
    · simp
    · have := record_same s (tryPublishPrepare s.sock.comp t p) (s.sock.tryPublish t p)
      simp [this.1, this.2]
  | driver e =>
    simp only [Server.act]
    split <;> simp
  | session i e =>
    simp only [Server.act]
    split <;> simp
  | drop =>
    simp only [Server.act]
    split <;> simp_all

theorem view_wf (L : Lossy) (i : Nat) (acts : List (SrvAct A)) : ∀ (s : Server A), i < s.ses.length → wf s.dropped (subView L i s acts) := by
  induction acts with
  | nil => intro s _; trivial
  | cons a acts ih =>
    intro s hi
    obtain ⟨h1, h2, -⟩ := act_len L s a
    have h3 := ih (s.act L a) (by omega)
    rw [subView]
    unfold subEv
    rw [if_pos hi]
    have hsame : a ≠ .drop → (s.act L a).dropped = s.dropped := by
      intro hne
      cases hd : s.dropped <;> cases hd' : (s.act L a).dropped <;> simp_all
    cases a with
    | bind bind addrs => rw [hsame (by simp)] at h3; exact h3
    | driver e => rw [hsame (by simp)] at h3; exact h3
    | publish t p =>
      rw [hsame (by simp)] at h3
      simp only
      split
      · exact h3
      · rename_i hd; exact ⟨by simpa using hd, h3⟩
    | tryPublish t p =>
      rw [hsame (by simp)] at h3
      simp only
      split
      · exact h3
      · rename_i hd; exact ⟨by simpa using hd, h3⟩
    | session j e =>
      rw [hsame (by simp)] at h3
      simp only
      split
      · exact ⟨rfl, h3⟩
      · exact h3
    | drop =>
      have : (s.act L .drop).dropped = true := h2.mpr (.inr rfl)
      rw [this] at h3
      simp only
      split
      · rename_i hd; rw [hd]; exact h3
      · rename_i hd; exact ⟨by simpa using hd, h3⟩

theorem reach_wf (L : Lossy) (i : Nat) (acts : List (SrvAct A)) : ∀ (s : Server A), s.ses.length ≤ i → ∀ c vs, subView L i s acts = .started c :: vs → wf c vs := by
  induction acts with
  | nil => intro s _ c vs h; cases h
  | cons a acts ih =>
    intro s hi c vs h
    rw [subView] at h
    unfold subEv at h
    rw [if_neg (by omega)] at h
    split at h
    · rename_i hlt
      simp only [List.singleton_append, List.cons.injEq, SubEv.started.injEq] at h
      obtain ⟨rfl, rfl⟩ := h
      have h3 := view_wf L i acts (s.act L a) hlt
      obtain ⟨-, h2, h4⟩ := act_len L s a
      have hne : a ≠ .drop := by
        rintro rfl
        have := h4 (by simp); omega
      have : (s.act L a).dropped = s.dropped := by
        cases hd : s.dropped <;> cases hd' : (s.act L a).dropped <;> simp_all
      rw [this] at h3; exact h3
    · exact ih (s.act L a) (by omega) c vs h

theorem view_lone {L : Lossy} (vs : List SubEv) : ∀ {s : Server Unit}, s.ses.length = 1 → wf s.dropped vs →
    subView L 0 s (vs.filterMap loneAct) = vs ∧ (s.run L (vs.filterMap loneAct)).ses.length = 1 ∧ listenerReports (vs.filterMap loneAct) = [] := by
  induction vs with
  | nil => intro s h _; exact ⟨rfl, h, rfl⟩
  | cons v vs ih =>
    intro s hs hw
    have key : ∀ a : SrvAct Unit, loneAct v = some a → (∀ e, a ≠ .driver e) → subEv 0 s (s.act L a) a = [v] → wf (s.act L a).dropped vs →
        subView L 0 s ((v :: vs).filterMap loneAct) = v :: vs ∧ (s.run L ((v :: vs).filterMap loneAct)).ses.length = 1 ∧
        listenerReports ((v :: vs).filterMap loneAct) = [] := by
      intro a ha hne hev hw'
      obtain ⟨-, -, hl⟩ := act_len L s a
      obtain ⟨h1, h2, h3⟩ := ih (s := s.act L a) ((hl hne).trans hs) hw'
      rw [List.filterMap_cons, ha]
      refine ⟨?_, h2, ?_⟩
      · simp only [subView, hev, h1]; rfl
      · cases a with
        | driver e => exact absurd rfl (hne e)
        | bind => exact h3
        | publish => exact h3
        | tryPublish => exact h3
        | session => exact h3
        | drop => exact h3
    have hdr : ∀ a : SrvAct Unit, a ≠ .drop → (s.act L a).dropped = s.dropped := by
      intro a hne
      obtain ⟨-, h2, -⟩ := act_len L s a
      cases hd : s.dropped <;> cases hd' : (s.act L a).dropped <;> simp_all
    cases v with
    | started b => exact hw.elim
    | published p =>
      obtain ⟨hd, hw⟩ := hw
      rcases p with ⟨_ | _, t, q⟩
      · refine key (.publish t q) rfl (fun e h => by cases h) ?_ (by rw [hdr _ (by simp)]; exact hw)
        unfold subEv
        rw [if_pos (by omega)]
        simp [hd]
      · refine key (.tryPublish t q) rfl (fun e h => by cases h) ?_ (by rw [hdr _ (by simp)]; exact hw)
        unfold subEv
        rw [if_pos (by omega)]
        simp [hd]
    | polled e =>
      obtain ⟨hf, hw⟩ := hw
      refine key (.session 0 e) rfl (fun e h => by cases h) ?_ (by rw [hdr _ (by simp)]; exact hw)
      unfold subEv
      rw [if_pos (by omega)]
      simp only [if_true]
      cases e; simp only at hf; subst hf; rfl
    | dropped =>
      obtain ⟨hd, hw⟩ := hw
      refine key .drop rfl (fun e h => by cases h) ?_ ?_
      · unfold subEv
        rw [if_pos (by omega)]
        simp [hd]
      · rw [(act_len L s .drop).2.1.mpr (.inr rfl)]; exact hw

/-- A publisher to which one subscriber comes. -/
def lonePrefix (dropped : Bool) (input : List ReadAns) : List (SrvAct Unit) :=
  .bind some [()] :: ((if dropped then [.drop] else []) ++
    [.driver ⟨none, none, some ⟨0, some (), ⟨input, [], [], []⟩⟩⟩, .driver ⟨none, some (0, true), none⟩])

theorem subView_append (L : Lossy) (i : Nat) (acts acts' : List (SrvAct A)) : ∀ s : Server A, subView L i s (acts ++ acts') = subView L i s acts ++ subView L i (s.run L acts) acts' := by
  induction acts with
  | nil => intro s; rfl
  | cons a acts ih =>
    intro s
    simp only [List.cons_append, subView, ih, List.append_assoc]
    rfl

theorem srv_run_append' (L : Lossy) (s : Server A) (acts acts' : List (SrvAct A)) : s.run L (acts ++ acts') = (s.run L acts).run L acts' := by
  simp [Server.run, List.foldl_append]

theorem reports_append (acts acts' : List (SrvAct A)) : listenerReports (acts ++ acts') = listenerReports acts ++ listenerReports acts' := by
  induction acts with
  | nil => rfl
  | cons a acts ih =>
    cases a <;> simp [listenerReports, ih]

/-- What a session has to read when it starts does not change. -/
theorem run_input (L : Lossy) (acts : List (SrvAct A)) : ∀ (s : Server A) (i : Nat), i < s.ses.length → ((s.run L acts).ses[i]?).map (·.input) = (s.ses[i]?).map (·.input) := by
  induction acts with
  | nil => intro s i _; rfl
  | cons a acts ih =>
    intro s i hi
    have h1 := ih (s.act L a) i (Nat.lt_of_lt_of_le hi (act_len L s a).1)
    refine Eq.trans h1 ?_
    cases a with
    | bind bind addrs =>
      simp only [Server.act]
      split
      · rfl
      · split <;> rfl
    | publish t p =>
      simp only [Server.act]
      split
      · rfl
      · rw [(record_same s _ _).1]
    | tryPublish t p =>
      simp only [Server.act]
      split
      · rfl
      · rw [(record_same s _ _).1]
    | driver e =>
      simp only [Server.act]
      split
      · rw [List.getElem?_append_left hi]
      · rfl
    | session j e =>
      simp only [Server.act]
      split
      · rename_i x b hx _
        simp only
        by_cases hj : j = i
        · subst hj
          rw [List.getElem?_set_self hi, hx]; rfl
        · rw [List.getElem?_set_ne hj]
      · rfl
    | drop =>
      simp only [Server.act]
      split <;> rfl

theorem lone_prefix (L : Lossy) (boundary minCompress bufferSize : Nat) (comp : Option Compressor) (hbuf : 0 < bufferSize ∧ bufferSize < 2 ^ 63) (c : Bool) (input : List ReadAns) :
    let s : Server Unit := Server.new none none boundary minCompress bufferSize comp
    (s.run L (lonePrefix c input)).ses.length = 1 ∧ (s.run L (lonePrefix c input)).dropped = c ∧ subView L 0 s (lonePrefix c input) = [.started c] ∧
    ((s.run L (lonePrefix c input)).ses[0]?).map (·.input) = some input := by
  have hb : ¬ (bufferSize = 0 ∨ 2 ^ 63 ≤ bufferSize) := by omega
  have e1 : (Server.new none none boundary minCompress bufferSize comp : Server Unit).act L (.bind some [()]) =
      { max := none, authn := none, boundary, sock := ⟨minCompress, bufferSize, comp, none, some (Bcast.new bufferSize), some ()⟩, drv := some { max := none, authn := none } } := by
    have e0 : (Socket.new minCompress bufferSize comp : Socket Unit).tryBind some [()] =
        .ok (.ok (), ⟨minCompress, bufferSize, comp, none, some (Bcast.new bufferSize), some ()⟩) := by
      unfold Socket.tryBind
      exact if_neg hb
    simp only [Server.act, Server.new, Bool.false_eq_true, if_false, e0]
  cases c <;> simp only [lonePrefix, Server.run, List.foldl_cons, e1, subView] <;> exact ⟨rfl, rfl, rfl, rfl⟩

/-- C116, as if alone: whatever happens at a publisher, for each of its sessions there is a history of a publisher with the same options for messages, to which no other subscriber ever comes, that agrees with the given one in
what concerns this subscriber; so in it the session does exactly the same: it takes the same messages, misses the same and writes the same bytes. -/
theorem C116_as_if_alone {A : Type} (L : Lossy) (boundary minCompress bufferSize : Nat) (comp : Option Compressor) (max authn) (acts : List (SrvAct A)) (i : Nat) (x : Ses A)
    (hx : ((Server.new max authn boundary minCompress bufferSize comp : Server A).run L acts).ses[i]? = some x) :
    ∃ acts' x', (listenerReports acts').length = 1 ∧
      ((Server.new none none boundary minCompress bufferSize comp : Server Unit).run L acts').ses = [x'] ∧ x'.input = x.input ∧
      subView L 0 (Server.new none none boundary minCompress bufferSize comp : Server Unit) acts' = subView L i (Server.new max authn boundary minCompress bufferSize comp) acts ∧
      x'.task.sess = x.task.sess ∧ x'.task.evs = x.task.evs ∧ x'.task.over = x.task.over := by
  obtain ⟨hb1, hb2, c, vs, h1, h2⟩ := reach_lone (L := L) acts (new_chanInv max authn boundary minCompress bufferSize comp) (Nat.zero_le _) hx
  have hw := reach_wf L i acts _ (Nat.zero_le _) c vs h1
  simp only [Server.new, Socket.new] at hb1 hb2
  obtain ⟨p1, p2, p3, p4⟩ := lone_prefix L boundary minCompress bufferSize comp ⟨hb1, hb2⟩ c x.input
  obtain ⟨v1, v2, v3⟩ := view_lone (L := L) vs (s := (Server.new none none boundary minCompress bufferSize comp : Server Unit).run L (lonePrefix c x.input)) p1 (by rw [p2]; exact hw)
  have hview : subView L 0 (Server.new none none boundary minCompress bufferSize comp : Server Unit) (lonePrefix c x.input ++ vs.filterMap loneAct)
      = subView L i (Server.new max authn boundary minCompress bufferSize comp) acts := by
    rw [subView_append, p3, v1, h1]; rfl
  rw [← srv_run_append'] at v2
  obtain ⟨x', hx'⟩ := List.length_eq_one_iff.mp v2
  have hx0 : ((Server.new none none boundary minCompress bufferSize comp : Server Unit).run L (lonePrefix c x.input ++ vs.filterMap loneAct)).ses[0]? = some x' := by rw [hx']; rfl
  have hin : x'.input = x.input := by
    have := run_input L (vs.filterMap loneAct) ((Server.new none none boundary minCompress bufferSize comp : Server Unit).run L (lonePrefix c x.input)) 0
    rw [← srv_run_append', hx0, p4] at this
    simpa using this (by omega)
  obtain ⟨g1, g2, g3⟩ := C116_isolated L boundary minCompress bufferSize comp none max none authn _ acts 0 i x' x hx0 hx hin hview
  refine ⟨_, x', ?_, hx', hin, hview, g1, g2, g3⟩
  rw [reports_append, v3]
  cases c <;> rfl

namespace Subscribers

def sub (t : UInt8) : Bytes := PubSub.encode ⟨⟨0, 9, PubSub.subPrefix ++ [t], 1, 0, 0⟩, []⟩

def conn (u : Nat) (t : UInt8) : Conn Nat := ⟨u, some u, ⟨[.data (sub t), .pending], [], [], []⟩⟩

def env (now : UInt64) : Env := { tick := true, flushAns := [.ok 100, .ok 1], readyAns := [], closeAns := [], feed := .pending, now }

/-- Two subscribers of different topics; messages before the second comes, interleaved polls, the first one leaves the channel unread. -/
def busy : List (SrvAct Nat) :=
  [.bind some [80], .driver ⟨none, none, some (conn 1 0x62)⟩, .driver ⟨none, some (0, true), none⟩, .publish ['a'] [0], .session 0 (env 3), .publish ['b'] [9],
    .driver ⟨none, none, some (conn 2 0x61)⟩, .driver ⟨none, some (0, true), none⟩, .session 1 (env 5), .session 0 (env 5), .publish ['b'] [1], .publish ['a'] [1, 2], .session 0 (env 6),
    .session 1 (env 7), .session 0 (env 7), .session 1 (env 7), .session 1 (env 8), .session 1 (env 8)]

/-- The second one without the first. -/
def quiet : List (SrvAct Nat) :=
  [.bind some [81], .driver ⟨none, none, some (conn 5 0x61)⟩, .driver ⟨none, some (0, true), none⟩, .session 0 (env 5), .publish ['b'] [1], .publish ['a'] [1, 2],
    .session 0 (env 7), .session 0 (env 7), .session 0 (env 8), .session 0 (env 8)]

def new : Server Nat := Server.new none none 8192 1024 4 none

theorem facts :
    ((new.run Lossy.strict busy).ses.map fun x => (x.conn.uid, x.task.sess.wr.wire)) = [(1, []), (2, PubSub.encode ⟨⟨0, 1, [0x61], 7, 0, 2⟩, [1, 2]⟩)] ∧
    ((new.run Lossy.strict quiet).ses.map fun x => (x.conn.uid, x.task.sess.wr.wire)) = [(5, PubSub.encode ⟨⟨0, 1, [0x61], 7, 0, 2⟩, [1, 2]⟩)] := by
  decide +kernel

theorem views : subView Lossy.strict 1 new busy = subView Lossy.strict 0 new quiet := by rfl

/-- The hypotheses of the theorem are met, and the two sessions are in the same state. -/
example : ∃ x x', (new.run Lossy.strict busy).ses[1]? = some x ∧ (new.run Lossy.strict quiet).ses[0]? = some x' ∧ x.task.sess = x'.task.sess := by
  have h1 : 1 < (new.run Lossy.strict busy).ses.length := by
    have := congrArg List.length facts.1
    simp at this; omega
  have h2 : 0 < (new.run Lossy.strict quiet).ses.length := by
    have := congrArg List.length facts.2
    simp at this; omega
  have i1 : (((new.run Lossy.strict busy).ses[1]?).map (·.input)) = some [.data (sub 0x61), .pending] := by decide +kernel
  have i2 : (((new.run Lossy.strict quiet).ses[0]?).map (·.input)) = some [.data (sub 0x61), .pending] := by decide +kernel
  rw [List.getElem?_eq_getElem h1] at i1
  rw [List.getElem?_eq_getElem h2] at i2
  simp only [Option.map_some, Option.some.injEq] at i1 i2
  exact ⟨_, _, List.getElem?_eq_getElem h1, List.getElem?_eq_getElem h2,
    (C116_isolated Lossy.strict 8192 1024 4 none none none none none busy quiet 1 0 _ _ (List.getElem?_eq_getElem h1) (List.getElem?_eq_getElem h2) (i1.trans i2.symm) views).1⟩

end Subscribers

end MsgRs.Props
