import Verif.Props.E2EQuiet
import Verif.Spec.AccountPub
/-!
# C118: every published message is accounted for
-/
namespace MsgRs.Sub
open MsgRs Spec

variable {A : Type} [DecidableEq A] {L : Lossy} {D : Decompressors}

/-- A message is recorded as going nowhere only when the socket was dropped. -/
theorem Reach.notGone {d : Driver A} (h : Reach L D d) : d.closed = false → ∀ x ∈ d.fates, x.2.2 ≠ .gone := by
  obtain ⟨opts, now, d0, acts, h0, h1⟩ := h
  refine (run_steps acts d0 d h1).induct (P := fun d => d.closed = false → ∀ x ∈ d.fates, x.2.2 ≠ .gone) ?_ ?_
  · intro d e h hi hc
    have hce : d.closed = false := by
      cases hx : d.closed with
      | false => rfl
      | true => exact absurd (h.log.2.2 hx).2 (by rw [hc]; decide)
    have hi := hi hce
    cases h with
    | command c q hq => rw [(onCommand_same _ c).2.2.2.2.2.2.2.1]; exact hi
    | take a u s t ms payload hl hu ht hd =>
      unfold Driver.deliver
      simp only [hce, Bool.false_eq_true, if_false]
      split
      all_goals
        intro x hx
        rcases List.mem_append.1 hx with h | h
        · exact hi x h
        · simp at h; subst h; simp
    | skip a u s t ms hl hu ht hd =>
      intro x hx
      rcases List.mem_append.1 hx with h | h
      · exact hi x h
      · simp at h; subst h; simp
    | lost a u s hl hu ht ho => rw [reset_eq]; exact hi
    | retry a b hl => unfold Driver.connect; split <;> exact hi
    | joinOk i a order out via input ht hr =>
      rw [(onConnection_same _ order a via input).2.2.2.2.2.2.2.1]; exact hi
    | _ => exact hi
  · unfold Driver.new at h0
    split at h0
    · cases h0
    · cases h0; intro _ x hx; cases hx

/-- Every message taken from a connection, if it can be decompressed, was delivered or turned away. -/
theorem taken_count (addrs : List A) (u : Nat) (a : A) (ha : addrs[u]? = some a) (fates : List (Nat × TopicMsg × Fate))
    (hg : ∀ x ∈ fates, x.2.2 ≠ .gone) (hun : ∀ x ∈ fates, x.2.2 = .undecodable → shownT D x.2.1 = none)
    (hok : ∀ x ∈ fates, x.1 = u → shownT D x.2.1 ≠ none) :
    (takenFrom fates u).length = (ofConn u (fates.filterMap (inMsgOf D addrs))).length +
      (fates.filter fun x => decide (x.1 = u) && decide (x.2.2 = .full)).length := by
  induction fates with
  | nil => rfl
  | cons x l ih =>
    have ih := ih (fun y hy => hg y (List.mem_cons_of_mem _ hy)) (fun y hy => hun y (List.mem_cons_of_mem _ hy))
      (fun y hy => hok y (List.mem_cons_of_mem _ hy))
    have ht : takenFrom (x :: l) u = (if x.1 = u then [x.2.1] else []) ++ takenFrom l u := by
      unfold takenFrom
      by_cases h : x.1 = u <;> simp [h]
    rw [ht, List.length_append, ih, List.filterMap_cons, List.filter_cons]
    obtain ⟨v, t, f⟩ := x
    by_cases hu : v = u
    · subst hu
      have h1 := hok _ List.mem_cons_self rfl
      cases f with
      | gone => exact absurd rfl (hg _ List.mem_cons_self)
      | undecodable => exact absurd (hun _ List.mem_cons_self rfl) h1
      | full => simp [inMsgOf]; omega
      | delivered =>
        cases hd : tryDecompress D t.ctype t.payload with
        | none => simp [shownT, hd] at h1
        | some p => simp [inMsgOf, ha, hd, ofConn, List.filter_cons]; omega
    · simp only [hu, decide_false, Bool.false_and, Bool.false_eq_true, if_false, List.length_nil, Nat.zero_add]
      cases hm : inMsgOf D addrs (v, t, f) with
      | none => simp
      | some m =>
        have h2 := (inMsgOf_conn hm).1
        simp only at h2
        simp [ofConn, List.filter_cons, h2, hu]

end MsgRs.Sub

namespace MsgRs.Props
open MsgRs Spec Pub

variable {A : Type}

theorem replay_le (log : List PubMsg) (evs : List Ev) : ∀ p q, replay log p evs = some q → p ≤ q := by
  induction evs with
  | nil => intro p q h; cases h; exact Nat.le_refl _
  | cons ev evs ih =>
    intro p q h
    cases ev with
    | took m n =>
      simp only [replay] at h
      split at h
      · have := ih _ _ h; omega
      · cases h
    | lagged k => have := ih _ _ h; omega
    | _ => exact ih _ _ h

theorem notMissed_missed (cs : List PubCall) (l : List Fated) : notMissed (cs.map Fated.missed ++ l) = notMissed l := by
  induction cs with
  | nil => rfl
  | cons c cs ih => simpa [notMissed] using ih

theorem everyCall_missed (cs : List PubCall) (l : List Fated) : everyCall (cs.map Fated.missed ++ l) = cs ++ everyCall l := by
  induction cs with
  | nil => rfl
  | cons c cs ih => simpa [everyCall] using ih

theorem missedCalls_missed (cs : List PubCall) (l : List Fated) : missedCalls (cs.map Fated.missed ++ l) = cs ++ missedCalls l := by
  induction cs with
  | nil => rfl
  | cons c cs ih => simpa [missedCalls] using ih

/-- The session's history with what it missed, in terms of subscriptions and calls. -/
theorem weaveFated {L : Lossy} {D : Decompressors} {minCompress : Nat} {comp : Option Compressor} (hcomp : ∀ c, comp = some c → Spec.Inverts D c)
    (log : List PubMsg) (evs : List Ev) : ∀ (p : Nat) (cs : List PubCall), replay log p evs = some log.length →
    cs.map (PubCall.prepare minCompress comp) = (log.drop p).map some →
    ∃ l, opsIn (notMissed l) = opsOf L evs ∧ everyCall l = cs ∧ (missedCalls l).length = missedOf evs ∧
      ∀ ops k, (due L ops k evs).filterMap (Sub.shown L D) =
        wanted (fun ops t => Trie.contains (filterAfter ops) t) ops (notMissed l) := by
  induction evs with
  | nil =>
    intro p cs h hc
    simp only [replay, Option.some.injEq] at h
    subst h
    rw [List.drop_length] at hc
    cases cs with
    | nil => exact ⟨[], rfl, rfl, rfl, fun _ _ => rfl⟩
    | cons c cs => cases hc
  | cons ev evs ih =>
    intro p cs h hc
    have other : replay log p evs = some log.length → opsOf L (ev :: evs) = opsOf L evs → missedOf (ev :: evs) = missedOf evs →
        (∀ ops k, due L ops k (ev :: evs) = due L ops k evs) →
        ∃ l, opsIn (notMissed l) = opsOf L (ev :: evs) ∧ everyCall l = cs ∧ (missedCalls l).length = missedOf (ev :: evs) ∧
          ∀ ops k, (due L ops k (ev :: evs)).filterMap (Sub.shown L D) =
            wanted (fun ops t => Trie.contains (filterAfter ops) t) ops (notMissed l) := by
      intro h1 h2 h3 h4
      obtain ⟨l, g1, g2, g3, g4⟩ := ih p cs h1 hc
      exact ⟨l, by rw [g1, h2], g2, by rw [g3, h3], fun ops k => by rw [h4, g4]⟩
    cases ev with
    | took m now =>
      simp only [replay] at h
      split at h
      · rename_i hm
        obtain ⟨hlt, hm'⟩ := List.getElem?_eq_some_iff.1 hm
        rw [List.drop_eq_getElem_cons hlt, hm'] at hc
        cases cs with
        | nil => cases hc
        | cons c cs =>
          simp only [List.map_cons, List.cons.injEq] at hc
          obtain ⟨l, g1, g2, g3, g4⟩ := ih (p + 1) cs h hc.2
          refine ⟨.turn c :: l, ?_, ?_, ?_, ?_⟩
          · show opsIn (notMissed l) = _
            rw [g1]; rfl
          · show c :: everyCall l = _
            rw [g2]
          · show (missedCalls l).length = _
            rw [g3]; simp [missedOf]
          · intro ops k
            have ht := prepare_topic hc.1
            have hp : ∀ k now, Sub.shown L D (frame k m now) = some (c.topic, c.payload) := by
              intro k now
              have := prepare_payload hcomp hc.1
              simp only [Sub.shown, frame, L.dec_utf8, this, ht]
            show _ = wanted _ ops (.call c :: notMissed l)
            simp only [due, wanted, ht]
            split
            · rw [List.filterMap_cons, hp, g4]
            · rw [g4]
      · cases h
    | lagged n =>
      have h' : replay log (p + n) evs = some log.length := h
      have hle := replay_le _ _ _ _ h'
      have hlen : cs.length = log.length - p := by
        have := congrArg List.length hc
        simpa using this
      obtain ⟨l, g1, g2, g3, g4⟩ := ih (p + n) (cs.drop n) h' (by rw [List.map_drop, hc, ← List.map_drop, List.drop_drop])
      refine ⟨(cs.take n).map .missed ++ l, ?_, ?_, ?_, ?_⟩
      · rw [notMissed_missed, g1]; rfl
      · rw [everyCall_missed, g2, List.take_append_drop]
      · rw [missedCalls_missed, List.length_append, g3, List.length_take, Nat.min_eq_left (by omega)]
        simp [missedOf]
      · intro ops k
        rw [notMissed_missed]
        exact g4 ops k
    | incoming m =>
      obtain ⟨l, g1, g2, g3, g4⟩ := ih p cs h hc
      cases hm : controlOp L m with
      | none =>
        refine ⟨l, ?_, g2, ?_, ?_⟩
        · rw [g1]; simp [opsOf, hm]
        · rw [g3]; simp [missedOf]
        · intro ops k
          simp only [due, hm, Option.toList_none, List.append_nil]
          exact g4 _ _
      | some o =>
        refine ⟨.op o :: l, ?_, g2, ?_, ?_⟩
        · show o :: opsIn (notMissed l) = _
          rw [g1]; simp [opsOf, hm]
        · show (missedCalls l).length = _
          rw [g3]; simp [missedOf]
        · intro ops k
          show _ = wanted _ ops (.op o :: notMissed l)
          simp only [due, hm, Option.toList_some, wanted]
          exact g4 _ _
    | _ => exact other h rfl (by simp [missedOf]) (fun _ _ => rfl)

/-- What a quiet pair has in common, for whatever subscriptions and without any assumption on room. -/
theorem account_history [DecidableEq A] (L : Lossy) (D : Decompressors) (max : Option Nat) (authn : Option (Bytes → Bool))
    (boundary minCompress bufferSize : Nat) (comp : Option Compressor) (hcomp : ∀ c, comp = some c → Spec.Inverts D c)
    (acts : List (SrvAct A)) (srv : Server A) (hsrv : srv = (Server.new max authn boundary minCompress bufferSize comp : Server A).run L acts)
    (i : Nat) (x : Ses A) (hx : srv.ses[i]? = some x)
    (hsmall : ∀ c ∈ pubCalls acts, ∀ m, c.prepare minCompress comp = some m → m.payload.length < 2 ^ 32)
    (opts : Sub.Options) (now : Nat) (d0 d : Sub.Driver A) (h0 : Sub.Driver.new opts now = .ok d0) (sacts : List (Sub.Act A))
    (hr : d0.run L D sacts = .ok d) (hopen : d.closed = false) (a : A) (u : Nat) (s : Sub.Session)
    (ha : d.Active a u) (hs : d.sessions[u]? = some s)
    (hpub : SessionIdle srv.log.length x.task) (hsub : LinkIdle s) (hex : Exchanged x s) :
    ∃ pre e post l, acts = pre ++ .driver e :: post ∧
      startedBy L (Server.new max authn boundary minCompress bufferSize comp : Server A) pre e i ∧
      everyCall l = (callsAfter pre (.driver e :: post)).filter (fun c => (c.prepare minCompress comp).isSome) ∧
      (∀ op ∈ opsIn (notMissed l), op ∈ d.processed.filterMap Sub.Command.op) ∧
      (s.offered.length ≤ 64 → s.wr.wire.length < opts.readBuffer →
        ∀ t, active (opsIn (notMissed l)) t = active (d.processed.filterMap Sub.Command.op) t) ∧
      (missedCalls l ≠ [] → ∃ before after y, acts = before ++ after ∧
        ((Server.new max authn boundary minCompress bufferSize comp : Server A).run L before).ses[i]? = some y ∧
        y.task.next + bufferSize < ((Server.new max authn boundary minCompress bufferSize comp : Server A).run L before).log.length) ∧
      ((Sub.ofConn u (d.received ++ d.inbox)).map fun m => (m.topic, m.payload)).Sublist
        (wanted (fun ops t => Trie.contains (filterAfter ops) t) [] (notMissed l)) ∧
      (wanted (fun ops t => Trie.contains (filterAfter ops) t) [] (notMissed l)).length =
        (Sub.ofConn u (d.received ++ d.inbox)).length + s.drops + turnedAway d u ∧
      (0 < s.drops + turnedAway d u → ∃ before after f, sacts = before ++ after ∧ d0.run L D before = .ok f ∧
        (opts.ingress ≤ f.inbox.length ∨ ∃ t : Sub.Session, f.sessions[u]? = some t ∧ 1024 ≤ t.toDriver.length)) := by
  subst hsrv
  have hreach : Sub.Reach L D d := ⟨opts, now, d0, sacts, h0, hr⟩
  have hal : s.alive = true := by
    obtain ⟨-, t, h1, h2⟩ := hreach.inv.act a u ha
    rw [hs] at h1; cases h1; exact h2
  have hd0 : d0.opts = opts ∧ d0.sessions = [] ∧ d0.fates = [] := by
    unfold Sub.Driver.new at h0
    split at h0
    · cases h0
    · cases h0; exact ⟨rfl, rfl, rfl⟩
  obtain ⟨pre, e, post, h1, h2, acts₁, acts₂, b, h3, h4, h5, h6, h7⟩ := session_history' L max authn boundary minCompress bufferSize comp acts i x hx
  have ht : ((Sys.new bufferSize).run L (acts₁ ++ .connect i boundary x.input :: acts₂)).tasks i = some x.task := by
    rw [h5]; simp [Server.sys, hx]
  have hT := task_cursor (L := L) h4 ht
  have hwalk := hT.cur.walk
  rw [hpub.taken, ← h6] at hwalk
  have hsub' : (tookOf x.task.evs).Sublist (published acts₂) := by
    have hnew : ((Sys.new bufferSize).run L acts₁).tasks i = none := h4
    obtain ⟨t, g1, g2, -⟩ := C23_feed_subsequence L bufferSize acts₁ acts₂ i boundary x.input hnew
    rw [ht] at g1; cases g1; exact g2
  have hsm : ∀ m ∈ tookOf x.task.evs, m.payload.length < 2 ^ 32 := by
    intro m hm
    have hm := hsub'.subset hm
    rw [h7] at hm
    obtain ⟨c, hc1, hc2⟩ := List.mem_filterMap.1 hm
    refine hsmall c ?_ m hc2
    rw [h1]
    exact List.mem_of_mem_drop hc1
  have hi := hreach.inv.sess u s hs
  obtain ⟨hsent, hgot, hops⟩ := quiet_core h4 ht hsm hi hpub.handed hpub.flushed hpub.dry hsub.dry hex.1 hex.2
  obtain ⟨l, g1, g2, g3, g4⟩ := weaveFated (L := L) (D := D) (minCompress := minCompress) (comp := comp) hcomp _ x.task.evs _
    ((callsAfter pre (.driver e :: post)).filter fun c => (c.prepare minCompress comp).isSome) hwalk
    (by rw [calls_map, List.drop_left, h7])
  obtain ⟨S', j1, -, j3, j4⟩ := Sub.sent_frames hi
  rw [hsub.flushed, List.append_nil] at j3
  have hshow : s.got.filterMap (Sub.shown L D) = wanted (fun ops t => Trie.contains (filterAfter ops) t) [] (notMissed l) := by
    rw [hgot, hsent]; exact g4 [] 0
  -- every frame read can be shown
  have hall : ∀ f ∈ s.got, Sub.shown L D f ≠ none := by
    intro f hf
    rw [hgot, hsent] at hf
    have key : ∀ (evs : List Ev) (ops : List Op) (k : Nat), (∀ m ∈ tookOf evs, ∃ c : PubCall, c.prepare minCompress comp = some m) →
        ∀ f ∈ due L ops k evs, Sub.shown L D f ≠ none := by
      intro evs
      induction evs with
      | nil => intro ops k _ f hf; cases hf
      | cons ev evs ih =>
        intro ops k hm f hf
        cases ev with
        | took m n =>
          have hrest : ∀ m ∈ tookOf evs, ∃ c : PubCall, c.prepare minCompress comp = some m :=
            fun m' h' => hm m' (by simp only [tookOf] at h' ⊢; exact List.mem_cons_of_mem _ h')
          simp only [due] at hf
          split at hf
          · rcases List.mem_cons.1 hf with rfl | hf
            · obtain ⟨c, hc⟩ := hm m (by simp [tookOf])
              have := prepare_payload hcomp hc
              simp [Sub.shown, frame, this]
            · exact ih _ _ hrest f hf
          · exact ih _ _ hrest f hf
        | _ => exact ih _ _ hm f hf
    refine key x.task.evs [] 0 ?_ f hf
    intro m hm
    have hm := hsub'.subset hm
    rw [h7] at hm
    obtain ⟨c, -, hc2⟩ := List.mem_filterMap.1 hm
    exact ⟨c, hc2⟩
  have hgotlen : (s.got.filterMap (Sub.shown L D)).length = s.got.length := by
    clear hshow hgot hops
    generalize s.got = G at hall
    induction G with
    | nil => rfl
    | cons f G ih =>
      have h1 := hall f List.mem_cons_self
      cases hf : Sub.shown L D f with
      | none => exact absurd hf h1
      | some y => simp [hf, ih (fun g hg => hall g (List.mem_cons_of_mem _ hg))]
  have hopt : d.opts = opts := by rw [(Sub.run_steps sacts d0 d hr).grow.2.2.2.2, hd0.1]
  refine ⟨pre, e, post, l, h1, h2, g2, ?_, ?_, ?_, ?_, ?_, ?_⟩
  · intro op hop
    rw [g1, hops S' j1 j3] at hop
    obtain ⟨y, hy, rfl⟩ := List.mem_map.1 hop
    obtain ⟨c, hc1, hc2⟩ := j4 y hy
    rw [← hc2]
    exact hreach.topics.src u s hs c hc1
  · intro hq hw t
    obtain ⟨S, k1, k2, k3⟩ := C46_told_partial L D d hreach a u s ha hs hsub.running (.inl hq) (.inl (by rw [hopt]; exact hw)) hsub.handled hsub.handed hsub.flushed
    rw [g1, hops S k1 k2, k3 t]
  · intro hne
    refine Classical.byContradiction fun hno => hne ?_
    have := C23_publisher_in_time L max authn boundary minCompress bufferSize comp acts i x hx (by
      intro p q y hp hy
      refine Classical.byContradiction fun hlt => hno ⟨p, q, y, hp, hy, by omega⟩)
    rw [this.1] at g3
    exact List.length_eq_zero_iff.1 g3
  · rw [← hshow]
    exact (C50_attributed_in_order L D d hreach).2 u s hs
  · rw [← hshow, hgotlen]
    have hfate := hreach.inv.fate u s hs
    rw [hsub.taken, List.append_nil] at hfate
    have hlt : u < d.addrs.length := by rw [hreach.inv.len]; exact (List.getElem?_eq_some_iff.1 hs).1
    obtain ⟨rest, hin, hrest⟩ := hreach.inv.inbox
    rw [hrest hopen, List.append_nil] at hin
    have hc := Sub.taken_count (D := D) d.addrs u d.addrs[u] (List.getElem?_eq_getElem hlt) d.fates (hreach.notGone hopen) hreach.undecodable (by
      intro y hy hyu
      have hmem : y.2.1 ∈ Sub.takenFrom d.fates u :=
        List.mem_map.2 ⟨y, List.mem_filter.2 ⟨hy, by simpa using hyu⟩, rfl⟩
      rw [← hfate] at hmem
      obtain ⟨f, hf, hfe⟩ := List.mem_map.1 (hi.fwd.subset hmem)
      rw [← hfe]
      exact hall f hf)
    rw [hin] at hc
    have hdr := hi.drops
    rw [hfate, hc] at hdr
    unfold turnedAway
    omega
  · intro hpos
    refine Classical.byContradiction fun hno => ?_
    have hnl : Sub.NoLoss u d := by
      refine Sub.NoLoss.run sacts hr ⟨by rw [hd0.2.2]; simp, by rw [hd0.2.1]; simp⟩ hopen (fun t ht => ?_) (fun p q f hp hf => ?_)
      · rw [hs] at ht; cases ht; exact hal
      · have hopt : f.opts = opts := by rw [(Sub.run_steps p d0 f hf).grow.2.2.2.2, hd0.1]
        refine ⟨Classical.byContradiction fun hlt => hno ⟨p, q, f, hp, hf, .inl (by rw [hopt] at hlt; omega)⟩, fun t ht => ?_⟩
        refine Classical.byContradiction fun hlt => hno ⟨p, q, f, hp, hf, .inr ⟨t, ht, ?_⟩⟩
        simpa [Sub.toDriverCap] using hlt
    have h8 := hnl.drops s hs
    have h9 : turnedAway d u = 0 := by
      unfold turnedAway
      rw [List.length_eq_zero_iff, List.filter_eq_nil_iff]
      intro y hy
      simp only [Bool.and_eq_true, decide_eq_true_eq, not_and]
      intro hyu hf
      exact (hnl.fates y hy hyu).1 hf
    omega

/-- A call that came to its turn is one of the calls. -/
theorem everyCall_mem {l : List Fated} {c : PubCall} (h : .call c ∈ notMissed l) : c ∈ everyCall l := by
  obtain ⟨y, hy, he⟩ := List.mem_filterMap.1 h
  refine List.mem_filterMap.2 ⟨y, hy, ?_⟩
  cases y <;> simp_all

/-- C118: a publisher and a subscriber socket have run for any time, each with any history of its own, and a client of the publisher is connected to the subscriber. Nothing is
assumed about room: the session may have fallen behind, queues may have been full. Now everything is quiet: both ends have nothing left to do and no byte is under way
between them. The subscriptions are to literal topics.

Then there is one history `l` in which every publish call since the client was admitted occurs exactly once, in order (but for calls whose compression failed), each either
missed by the session, or come to its turn between changes of subscriptions that the user requested. Some are missed only if at some moment the session was more than
`session_buffer_size` messages behind. Of those that came to their turn, the user has those whose topic was subscribed to at that turn, in order, with their payloads, except for
exactly as many as the subscriber dropped at two places, each with a line in the log: `s.drops`, because 1024 already waited for the background task, and `turnedAway`, because
the buffer for the user was full. Either can only be if that was so at some moment. -/
theorem C118_every_message_accounted [DecidableEq A] (L : Lossy) (D : Decompressors) (max : Option Nat) (authn : Option (Bytes → Bool))
    (boundary minCompress bufferSize : Nat) (comp : Option Compressor) (hcomp : ∀ c, comp = some c → Spec.Inverts D c)
    (acts : List (SrvAct A)) (srv : Server A) (hsrv : srv = (Server.new max authn boundary minCompress bufferSize comp : Server A).run L acts)
    (i : Nat) (x : Ses A) (hx : srv.ses[i]? = some x)
    (hsmall : ∀ c ∈ pubCalls acts, ∀ m, c.prepare minCompress comp = some m → m.payload.length < 2 ^ 32)
    (opts : Sub.Options) (now : Nat) (d0 d : Sub.Driver A) (h0 : Sub.Driver.new opts now = .ok d0) (sacts : List (Sub.Act A))
    (hr : d0.run L D sacts = .ok d) (hopen : d.closed = false) (a : A) (u : Nat) (s : Sub.Session)
    (ha : d.Active a u) (hs : d.sessions[u]? = some s)
    -- everything is quiet
    (hpub : SessionIdle srv.log.length x.task) (hsub : LinkIdle s) (hex : Exchanged x s)
    (hLit : ∀ op ∈ d.processed.filterMap Sub.Command.op, Spec.Literal op.pattern) :
    ∃ pre e post l, acts = pre ++ .driver e :: post ∧
      startedBy L (Server.new max authn boundary minCompress bufferSize comp : Server A) pre e i ∧
      everyCall l = (callsAfter pre (.driver e :: post)).filter (fun c => (c.prepare minCompress comp).isSome) ∧
      (∀ op ∈ opsIn (notMissed l), op ∈ d.processed.filterMap Sub.Command.op) ∧
      (s.offered.length ≤ 64 → s.wr.wire.length < opts.readBuffer →
        ∀ t, active (opsIn (notMissed l)) t = active (d.processed.filterMap Sub.Command.op) t) ∧
      (missedCalls l ≠ [] → ∃ before after y, acts = before ++ after ∧
        ((Server.new max authn boundary minCompress bufferSize comp : Server A).run L before).ses[i]? = some y ∧
        y.task.next + bufferSize < ((Server.new max authn boundary minCompress bufferSize comp : Server A).run L before).log.length) ∧
      ((Sub.ofConn u (d.received ++ d.inbox)).map fun m => (m.topic, m.payload)).Sublist (wanted active [] (notMissed l)) ∧
      (wanted active [] (notMissed l)).length = (Sub.ofConn u (d.received ++ d.inbox)).length + s.drops + turnedAway d u ∧
      (0 < s.drops + turnedAway d u → ∃ before after f, sacts = before ++ after ∧ d0.run L D before = .ok f ∧
        (opts.ingress ≤ f.inbox.length ∨ ∃ t : Sub.Session, f.sessions[u]? = some t ∧ 1024 ≤ t.toDriver.length)) := by
  obtain ⟨pre, e, post, l, h1, h2, h3, h4, h5, h6, h7, h8, h9⟩ := account_history L D max authn boundary minCompress bufferSize comp hcomp acts srv hsrv i x hx hsmall
    opts now d0 d h0 sacts hr hopen a u s ha hs hpub hsub hex
  have hw : wanted active [] (notMissed l) = wanted (fun ops t => Trie.contains (filterAfter ops) t) [] (notMissed l) := by
    refine (wanted_congr (notMissed l) [] (fun p q c hl => ?_)).symm
    rw [List.nil_append]
    have := C15_literal_exact (opsIn p) (fun op hop => hLit op (h4 op (opsIn_prefix hl op hop))) c.topic
    cases hx : active (opsIn p) c.topic <;> cases hy : Trie.contains (filterAfter (opsIn p)) c.topic <;> simp_all
  exact ⟨pre, e, post, l, h1, h2, h3, h4, h5, h6, by rw [hw]; exact h7, by rw [hw]; exact h8, h9⟩

open Classical in
/-- C118 with wildcards: as `C118_every_message_accounted`, for well-formed patterns and topics without a `>` token; wanted are the messages whose topic a pattern subscribed to at
their turn passed (`PassedBy`, C17). -/
theorem C118_wildcards_accounted [DecidableEq A] (L : Lossy) (D : Decompressors) (max : Option Nat) (authn : Option (Bytes → Bool))
    (boundary minCompress bufferSize : Nat) (comp : Option Compressor) (hcomp : ∀ c, comp = some c → Spec.Inverts D c)
    (acts : List (SrvAct A)) (srv : Server A) (hsrv : srv = (Server.new max authn boundary minCompress bufferSize comp : Server A).run L acts)
    (i : Nat) (x : Ses A) (hx : srv.ses[i]? = some x)
    (hsmall : ∀ c ∈ pubCalls acts, ∀ m, c.prepare minCompress comp = some m → m.payload.length < 2 ^ 32)
    (opts : Sub.Options) (now : Nat) (d0 d : Sub.Driver A) (h0 : Sub.Driver.new opts now = .ok d0) (sacts : List (Sub.Act A))
    (hr : d0.run L D sacts = .ok d) (hopen : d.closed = false) (a : A) (u : Nat) (s : Sub.Session)
    (ha : d.Active a u) (hs : d.sessions[u]? = some s)
    -- everything is quiet
    (hpub : SessionIdle srv.log.length x.task) (hsub : LinkIdle s) (hex : Exchanged x s)
    (hwf : ∀ op ∈ d.processed.filterMap Sub.Command.op, Spec.WellFormed op.pattern)
    (hts : ∀ c ∈ pubCalls acts, ['>'] ∉ splitDots c.topic) :
    ∃ pre e post l, acts = pre ++ .driver e :: post ∧
      startedBy L (Server.new max authn boundary minCompress bufferSize comp : Server A) pre e i ∧
      everyCall l = (callsAfter pre (.driver e :: post)).filter (fun c => (c.prepare minCompress comp).isSome) ∧
      (∀ op ∈ opsIn (notMissed l), op ∈ d.processed.filterMap Sub.Command.op) ∧
      (s.offered.length ≤ 64 → s.wr.wire.length < opts.readBuffer →
        ∀ t, active (opsIn (notMissed l)) t = active (d.processed.filterMap Sub.Command.op) t) ∧
      (missedCalls l ≠ [] → ∃ before after y, acts = before ++ after ∧
        ((Server.new max authn boundary minCompress bufferSize comp : Server A).run L before).ses[i]? = some y ∧
        y.task.next + bufferSize < ((Server.new max authn boundary minCompress bufferSize comp : Server A).run L before).log.length) ∧
      ((Sub.ofConn u (d.received ++ d.inbox)).map fun m => (m.topic, m.payload)).Sublist (wanted (fun ops topic => decide (∃ p, PassedBy ops topic p)) [] (notMissed l)) ∧
      (wanted (fun ops topic => decide (∃ p, PassedBy ops topic p)) [] (notMissed l)).length = (Sub.ofConn u (d.received ++ d.inbox)).length + s.drops + turnedAway d u ∧
      (0 < s.drops + turnedAway d u → ∃ before after f, sacts = before ++ after ∧ d0.run L D before = .ok f ∧
        (opts.ingress ≤ f.inbox.length ∨ ∃ t : Sub.Session, f.sessions[u]? = some t ∧ 1024 ≤ t.toDriver.length)) := by
  obtain ⟨pre, e, post, l, h1, h2, h3, h4, h5, h6, h7, h8, h9⟩ := account_history L D max authn boundary minCompress bufferSize comp hcomp acts srv hsrv i x hx hsmall
    opts now d0 d h0 sacts hr hopen a u s ha hs hpub hsub hex
  have hw : wanted (fun ops topic => decide (∃ p, PassedBy ops topic p)) [] (notMissed l) =
      wanted (fun ops t => Trie.contains (filterAfter ops) t) [] (notMissed l) := by
    refine (wanted_congr (notMissed l) [] (fun p q c hl => ?_)).symm
    rw [List.nil_append]
    have hc : c ∈ pubCalls acts := by
      have : c ∈ everyCall l := everyCall_mem (by rw [hl]; simp)
      rw [h3] at this
      rw [h1]
      exact List.mem_of_mem_drop (List.mem_filter.1 this).1
    have := C17_exactly (opsIn p) (fun op hop => hwf op (h4 op (opsIn_prefix hl op hop))) c.topic (hts c hc)
    by_cases hx : ∃ p', PassedBy (opsIn p) c.topic p'
    · simp [hx, this]
    · have : ¬ Trie.contains (filterAfter (opsIn p)) c.topic = true := fun h => hx (this.1 h)
      simp [hx, this]
  exact ⟨pre, e, post, l, h1, h2, h3, h4, h5, h6, by rw [hw]; exact h7, by rw [hw]; exact h8, h9⟩

namespace E2EServer
open E2E

/-- A publisher with a session buffer of two: the client subscribes to `a`, three messages are published before the session runs again. -/
def srvLag : List (SrvAct Nat) :=
  [.bind some [80], .driver ⟨none, none, some ⟨0, some 0, ⟨[.data subA], [], [], []⟩⟩⟩, .driver ⟨none, some (0, true), none⟩, .driver ⟨none, none, none⟩] ++
    List.replicate 2 (.session 0 E2E.env) ++ [.publish ['a'] [1], .publish ['a'] [2], .publish ['a'] [3]] ++ List.replicate 10 (.session 0 E2E.env)

def srvG : Server Nat := (Server.new none none 8192 10 2 none).run Lossy.strict srvLag

def pubBytesG : Bytes :=
  PubSub.encode ⟨⟨0, 1, [97], 7, 0, 1⟩, [2]⟩ ++ PubSub.encode ⟨⟨0, 1, [97], 7, 1, 1⟩, [3]⟩

/-- The subscriber, with room for one message. -/
def subLag : List (Sub.Act Nat) :=
  [.call (.subscribe ['a']), .call (.connect 5), .iter ⟨[], [], none⟩, .iter ⟨[], [], none⟩, .iter ⟨[5], [], conn [.pending, .data pubBytesG]⟩] ++
    List.replicate 12 (.session 0 eager) ++ List.replicate 8 (.iter ⟨[5], [], none⟩)

theorem srvG_ok : (match srvG.ses[0]? with
    | some x => decide (x.input = [.data subA]) && decide (x.task.sess.wr.wire = pubBytesG) && decide (x.task.sess.wr.buf = []) &&
        decide (x.task.sess.pending = none) && decide (x.task.next = srvG.log.length) &&
        decide (x.task.sess.rd.pollNext PubSub.codec [] = .ok (.pending, x.task.sess.rd, [])) &&
        decide (readSoFar x.input x.task.sess.input = subA)
    | none => false) = true := by decide +kernel

/-- The user has one message; another one was turned away. -/
theorem subG_ok : after { ingress := 1 } subLag (fun d =>
    (match d.sessions[0]? with
    | some s => decide (s.wr.wire = subA) && decide (s.wr.buf = []) && decide (s.over = false) &&
        decide (s.cmds = []) && decide (s.egress = []) && decide (s.toDriver = []) &&
        decide (s.drops = 0) && decide (s.rd.pollNext PubSub.codec [] = .ok (.pending, s.rd, [])) &&
        decide (readSoFar s.input0 s.input = pubBytesG)
    | none => false) && decide (d.closed = false) && decide (d.pubs = [(5, .active 0)]) &&
    decide (d.processed = [.subscribe ['a'], .connect 5]) && decide (turnedAway d 0 = 1) &&
    decide (d.received = []) && decide (d.inbox = [⟨5, ['a'], [2], 0⟩])) = true := by decide +kernel

/-- All hypotheses of `C118_every_message_accounted` are met by this pair: of three messages one was missed, one turned away, and one delivered. -/
example : ∃ (d : Sub.Driver Nat) (s : Sub.Session), Sub.Reach Lossy.strict noDec d ∧ d.sessions[0]? = some s ∧
    ((Sub.ofConn 0 (d.received ++ d.inbox)).map fun m => (m.topic, m.payload)) = [(['a'], [2])] ∧
    s.drops = 0 ∧ turnedAway d 0 = 1 ∧
    ∃ pre e post l, srvLag = pre ++ .driver e :: post ∧
      everyCall l = (callsAfter pre (.driver e :: post)).filter (fun c => (c.prepare 10 none).isSome) ∧
      ((Sub.ofConn 0 (d.received ++ d.inbox)).map fun m => (m.topic, m.payload)).Sublist (wanted active [] (notMissed l)) ∧
      (wanted active [] (notMissed l)).length = 2 := by
  have hp := srvG_ok
  have hok := subG_ok
  unfold after at hok
  cases h0 : (Sub.Driver.new { ingress := 1 } 0 : R (Sub.Driver Nat)) with
  | panic => rw [h0] at hok; cases hok
  | ok d0 =>
    rw [h0] at hok
    simp only at hok
    cases hrun : d0.run Lossy.strict noDec subLag with
    | panic => rw [hrun] at hok; cases hok
    | ok d =>
      rw [hrun] at hok
      simp only at hok
      cases hx : srvG.ses[0]? with
      | none => rw [hx] at hp; cases hp
      | some x =>
        rw [hx] at hp
        cases hs : d.sessions[0]? with
        | none => rw [hs] at hok; simp at hok
        | some s =>
          rw [hs] at hok
          simp only [Bool.and_eq_true, decide_eq_true_eq, and_assoc] at hok hp
          obtain ⟨h1, h2, h3, h4, h5, h6, h7, h8, h9, h10, h11, h12, h13, h14, h15⟩ := hok
          obtain ⟨p0, p1, p2, p3, p4, p5, p6⟩ := hp
          refine ⟨d, s, ⟨_, 0, d0, subLag, h0, hrun⟩, hs, by rw [h14, h15]; rfl, h7, h13, ?_⟩
          obtain ⟨pre, e, post, l, q1, -, q3, -, -, -, q7, q8, -⟩ := C118_every_message_accounted Lossy.strict noDec none none 8192 10 2 none (fun c h => by cases h)
            srvLag srvG rfl 0 x hx (by decide +kernel) { ingress := 1 } 0 d0 d h0 subLag hrun h10 5 0 s (by unfold Sub.Driver.Active; rw [h11]; decide) hs
            ⟨p4, p3, p2, p5⟩ ⟨h3, h4, h5, h2, h8, h6⟩ ⟨by rw [h9, p1], by rw [p6, h1]⟩ (by
              rw [h12]
              intro op hop
              simp only [List.filterMap_cons, List.filterMap_nil, Sub.Command.op, List.mem_cons, List.not_mem_nil, or_false] at hop
              rcases hop with rfl <;> (unfold Spec.Literal; decide))
          refine ⟨pre, e, post, l, q1, q3, q7, ?_⟩
          rw [q8, h7, h13, h14, h15]
          rfl

end E2EServer

end MsgRs.Props
