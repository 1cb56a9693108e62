import Verif.Proofs.HandshakePair
import Verif.Props.Req
import Verif.Props.Wire
import Verif.Props.Sub
/-!
# Property C98: both ends of an authenticated connection agree

`Spec.HsPair`: a client with a token and a server with an authenticator at the two ends of one connection, which
delivers only bytes that were written at the other end, cut and delayed in any way, possibly with errors, and possibly
not all of them.
-/
namespace MsgRs.Props
open MsgRs Spec

theorem authBytes_inj {id id0 x y : Bytes} (h : id.length < 2 ^ 32) (h0 : id0.length < 2 ^ 32)
    (he : authBytes id ++ x = authBytes id0 ++ y) : id = id0 ∧ x = y := by
  simp only [authBytes, List.cons_append, List.cons.injEq, true_and, List.append_assoc] at he
  have hl : (putU32 (UInt32.ofNat id.length)).length = (putU32 (UInt32.ofNat id0.length)).length := by simp
  obtain ⟨ha, hb⟩ := List.append_inj he hl
  have hlen : id.length = id0.length := by
    have h1 := Auth.idLen_put id [] h
    have h2 := Auth.idLen_put id0 [] h0
    rw [ha] at h1
    exact h1.symm.trans h2
  exact List.append_inj hb hlen

/-- What the client wrote is (a beginning of) its authentication message. -/
theorem client_wire (token : Bytes) (e : HsEnv) : hsWire (hsClient token e) <+: authBytes token := by
  have h := C31_client_needs_ack token e
  cases hc : hsClient token e with
  | waiting w => rw [hc] at h; exact h
  | failed w => rw [hc] at h; exact h
  | panicked => exact List.nil_prefix
  | accepted id w rest lost => rw [hc] at h; exact ⟨[], by rw [List.append_nil]; exact h.2.1⟩

/-- A token the server read is the client's. -/
theorem token_read {token : Bytes} (htok : token.length < 2 ^ 32) {ec : HsEnv} {reads : List ReadAns}
    (hr : ReadsFrom reads (hsClient token ec)) {id lost : Bytes} {pre rest : List ReadAns} (hid : id.length < 2 ^ 32)
    (hp : reads = pre ++ rest) (hd : dataOf pre = authBytes id ++ lost) : id = token := by
  obtain ⟨more, hm, ⟨z, hz⟩⟩ := hr
  obtain ⟨u, hu⟩ := client_wire token ec
  rw [hp, dataOf_append, hd] at hz
  by_cases hmore : more = []
  · rw [hmore, List.append_nil] at hz
    refine (authBytes_inj (x := lost ++ dataOf rest ++ z ++ u) (y := []) hid htok ?_).1
    rw [← hu, ← hz]; simp
  · have hdone := hm hmore
    have hw : hsWire (hsClient token ec) = authBytes token := by
      have h := C31_client_needs_ack token ec
      cases hc : hsClient token ec with
      | accepted id' w rest' lost' => rw [hc] at h; exact h.2.1
      | waiting w => rw [hc] at hdone; exact hdone.elim
      | failed w => rw [hc] at hdone; exact hdone.elim
      | panicked => rw [hc] at hdone; exact hdone.elim
    rw [hw] at hz
    refine (authBytes_inj (x := lost ++ dataOf rest ++ z) (y := more) hid htok ?_).1
    rw [← hz]; simp

/-- C98, safety, the server's side: whom the server admits is the client at the other end, under the client's own
token. -/
theorem C98_server_admits_the_client (token : Bytes) (htok : token.length < 2 ^ 32) (authn : Bytes → Bool) (ec es : HsEnv)
    (h : HsPair token authn ec es) (id wire : Bytes) (rest : List ReadAns) (lost : Bytes)
    (hacc : hsServer authn es = .accepted id wire rest lost) : id = token ∧ authn token = true := by
  have hs := C30_handshake authn es
  rw [hacc] at hs
  obtain ⟨h1, -, h2, pre, hp, hd⟩ := hs
  have := token_read htok h.toServer h2 hp hd
  exact ⟨this, this ▸ h1⟩

/-- C98, safety, the client's side: a client goes on to use the connection only if the server's authenticator accepted
the client's token — the server sent the Ack, and then admits the client under its token unless the server itself
fails before its handshake is over. In particular a client whose token is not accepted never uses the connection. -/
theorem C98_client_proceeds_only_if_accepted (token : Bytes) (htok : token.length < 2 ^ 32) (authn : Bytes → Bool) (ec es : HsEnv)
    (h : HsPair token authn ec es) (id wire : Bytes) (rest : List ReadAns) (lost : Bytes)
    (hacc : hsClient token ec = .accepted id wire rest lost) :
    authn token = true ∧ hsWire (hsServer authn es) = [1, 1] ∧
      ((∃ rest' lost', hsServer authn es = .accepted token [1, 1] rest' lost') ∨
        hsServer authn es = .waiting [1, 1] ∨ hsServer authn es = .failed [1, 1]) := by
  have hc := C31_client_needs_ack token ec
  rw [hacc] at hc
  obtain ⟨-, -, pre, a, hp, ha, hd⟩ := hc
  obtain ⟨more, hm, ⟨z, hz⟩⟩ := h.toClient
  rw [hp, dataOf_append, hd] at hz
  have hs := C30_handshake authn es
  -- the server's handshake is not over: nothing but (a prefix of) its verdict was written
  have open' : ∀ w, hsWire (hsServer authn es) = w → ¬ hsDone (hsServer authn es) →
      (w = [] ∨ ∃ id pre rest lost, id.length < 2 ^ 32 ∧ es.reads = pre ++ rest ∧ dataOf pre = authBytes id ++ lost ∧
        (if authn id then w <+: [1, 1] else w <+: [1, 0])) → authn token = true ∧ w = [1, 1] := by
    intro w hw hnd hcase
    have hmore : more = [] := by
      by_cases hq : more = []
      · exact hq
      · exact absurd (hm hq) hnd
    rw [hw, hmore, List.append_nil] at hz
    have h2 : 2 ≤ w.length := by rw [← hz]; simp
    rcases hcase with rfl | ⟨id', pre', rest', lost', hid, hp', hd', hv⟩
    · simp at h2
    · have := token_read htok h.toServer hid hp' hd'
      subst this
      cases hau : authn id' with
      | true =>
        rw [hau] at hv
        refine ⟨rfl, ?_⟩
        have hv : w <+: [1, 1] := hv
        exact hv.eq_of_length (by have := hv.length_le; simp at this ⊢; omega)
      | false =>
        rw [hau] at hv
        have hv : w <+: [1, 0] := hv
        have hw : w = [1, 0] := hv.eq_of_length (by have := hv.length_le; simp at this ⊢; omega)
        rw [hw] at hz
        simp at hz
        exact absurd hz.1 ha
  cases hsv : hsServer authn es with
  | panicked =>
    rw [hsv] at hm hz
    have hmore : more = [] := by
      by_cases hq : more = []
      · exact hq
      · exact (hm hq).elim
    rw [hmore] at hz
    simp [hsWire] at hz
  | accepted id' w rest' lost' =>
    rw [hsv] at hs
    obtain ⟨h1, rfl, h2, pre', hp', hd'⟩ := hs
    have := token_read htok h.toServer h2 hp' hd'
    subst this
    exact ⟨h1, rfl, .inl ⟨_, _, rfl⟩⟩
  | waiting w =>
    rw [hsv] at hs open'
    obtain ⟨h1, rfl⟩ := open' w rfl (fun q => q) hs
    exact ⟨h1, rfl, .inr (.inl rfl)⟩
  | failed w =>
    rw [hsv] at hs open'
    obtain ⟨h1, rfl⟩ := open' w rfl (fun q => q) hs
    exact ⟨h1, rfl, .inr (.inr rfl)⟩

theorem flushAwait_ok (w : Writer) (hw : w.buf = []) (as : List WriteAns) :
    (w.flushAwait as).1 = (({} : Writer).flushAwait as).1 := by
  unfold Writer.flushAwait
  cases as.filter (· ≠ .pending) with
  | nil => rfl
  | cons a as => cases a <;> simp [Writer.flush, hw]

/-- The server-side decoder on a beginning of the authentication message. -/
theorem server_prefix (token : Bytes) (htok : token.length < 2 ^ 32) (b : Bytes) (hb : b <+: authBytes token) (hne : b ≠ authBytes token) :
    (¬ dangerous token.length b.length → Auth.serverCodec.decode .authReceive b = .ok (.more, .authReceive, b)) ∧
    (dangerous token.length b.length → Auth.serverCodec.decode .authReceive b = .panic) := by
  obtain ⟨x, hx⟩ := hb
  have hd := Auth.decodeServer_prefix token b x [] htok (by rw [hx]; simp [authBytes, Auth.WIRE_ID])
  have hlen : b.length < token.length + 5 := by
    have h1 := congrArg List.length hx
    simp [authBytes] at h1
    cases x with
    | nil => exact absurd (by simpa using hx) hne
    | cons y x => simp at h1; omega
  constructor
  · intro hnd
    unfold dangerous at hnd
    refine Eq.trans hd ?_
    by_cases h4 : b.length < 4
    · rw [if_pos h4]
    · rw [if_neg h4, if_neg (by omega), if_pos (by omega)]
  · intro hdg
    unfold dangerous at hdg
    refine Eq.trans hd ?_
    rcases hdg with h | h
    · rw [if_neg (by omega), if_pos h]
    · rw [if_neg (by omega), if_neg (by omega), if_neg (by omega), if_pos (by omega)]

theorem server_reads (token : Bytes) (htok : token.length < 2 ^ 32) (l rest : List ReadAns) (hl : OpenAns l)
    (hd : dataOf l = authBytes token) :
    ((∀ l1 l2, l = l1 ++ l2 → ¬ dangerous token.length (dataOf l1).length) →
      ∃ r k, (Reader.new Auth.serverCodec).await Auth.serverCodec (l ++ rest)
        = .ok (.item (.auth token), r, List.replicate k .pending ++ rest) ∧ r.st = .ack ∧ r.buf = []) ∧
    ((∃ l1 l2, l = l1 ++ l2 ∧ dangerous token.length (dataOf l1).length) →
      (Reader.new Auth.serverCodec).await Auth.serverCodec (l ++ rest) = .panic) := by
  have hF : Auth.serverCodec.decode .authReceive (authBytes token) = .ok (.item (.auth token), .ack, []) := by
    have := (C07_auth_roundtrip token [] .ack htok).1
    rw [List.append_nil] at this
    refine Eq.trans ?_ this
    simp [Auth.encode, authBytes, Auth.WIRE_ID, Auth.serverCodec, Auth.newServer]
  have h := await_cut Auth.serverCodec .authReceive .ack (authBytes token) (dangerous token.length) (.item (.auth token)) _ rfl
    (fun b hb hne => (server_prefix token htok b hb hne).1) (fun b hb hne => (server_prefix token htok b hb hne).2) hF
    (by unfold dangerous; simp [authBytes]; omega) rest l (Reader.new Auth.serverCodec) rfl rfl rfl rfl hl
    (by simpa [Reader.new] using hd) (by simp [Reader.new, authBytes]) (by unfold dangerous; simp [Reader.new])
  simpa [Reader.new] using h

theorem client_reads (a : UInt8) (l rest : List ReadAns) (hl : OpenAns l) (hd : dataOf l = [1, a]) :
    ∃ r k, ({ st := .ack } : Reader Auth.State).await Auth.clientCodec (l ++ rest)
      = .ok (if a = 0 then .err .rejected else .item .ack, r, List.replicate k .pending ++ rest) ∧ r.buf = [] := by
  have hdec : Auth.clientCodec.decode .ack [1, a] = .ok (if a = 0 then .err .rejected else .item .ack, .ack, []) := by
    show Auth.decodeClient [1, a] = _
    rw [Auth.decodeClient_eq]
    simp only [Auth.WIRE_ID, ne_eq, not_true_eq_false, if_false]
    by_cases ha : a = 0
    · rw [if_pos ha, if_pos ha]
    · rw [if_neg ha, if_neg ha]
  have h := await_cut Auth.clientCodec .ack .ack [1, a] (fun _ => False) _ (if a = 0 then .err .rejected else .item .ack)
    (by by_cases ha : a = 0 <;> simp [ha, decOut])
    (by
      intro b hb hne _
      show Auth.decodeClient b = _
      rw [Auth.decodeClient_eq]
      obtain ⟨x, hx⟩ := hb
      match b, hx, hne with
      | [], _, _ => rfl
      | [w], _, _ => rfl
      | w :: v :: t, hx, hne =>
        simp at hx
        exact absurd (by simp [hx.1, hx.2.1, hx.2.2.1]) hne)
    (fun _ _ _ hf => hf.elim) hdec (fun hf => hf) rest l ({ st := .ack } : Reader Auth.State) rfl rfl rfl rfl hl
    (by simpa using hd) (by simp) (fun hf => hf)
  obtain ⟨r, k, h1, -, h3⟩ := h.1 (fun _ _ _ hf => hf)
  exact ⟨r, k, h1, h3⟩

/-- C98, completion: the connection takes what both ends write and delivers the client's token to the server and the
server's verdict to the client, in pieces and with delays, but no piece ends at a dangerous place inside the token
(C08). Then both ends come to the authenticator's verdict: either both consider the connection established — the
server under the client's token, both with exactly the reads that follow — or both give it up. -/
theorem C98_both_reach_the_verdict (token : Bytes) (htok : token.length < 2 ^ 32) (authn : Bytes → Bool) (ec es : HsEnv)
    (hwc : Writable (authBytes token) ec) (hws : Writable [1, if authn token then 1 else 0] es)
    (l rest l' rest' : List ReadAns) (hes : es.reads = l ++ rest) (hl : OpenAns l) (hld : dataOf l = authBytes token)
    (hsafe : ∀ l1 l2, l = l1 ++ l2 → ¬ dangerous token.length (dataOf l1).length)
    (hec : ec.reads = l' ++ rest') (hl' : OpenAns l') (hld' : dataOf l' = [1, if authn token then 1 else 0]) :
    (authn token = true → ∃ k k', hsServer authn es = .accepted token [1, 1] (List.replicate k .pending ++ rest) [] ∧
      hsClient token ec = .accepted token (authBytes token) (List.replicate k' .pending ++ rest') []) ∧
    (authn token = false → hsServer authn es = .failed [1, 0] ∧ hsClient token ec = .failed (authBytes token)) := by
  obtain ⟨r, k, h1, h2, h3⟩ := (server_reads token htok l rest hl hld).1 hsafe
  obtain ⟨r', k', h1', h3'⟩ := client_reads _ l' rest' hl' hld'
  have hcl : hsClient token ec = match (if authn token then (.item .ack : FOut Auth.Err Auth.Message) else .err .rejected) with
      | .item .ack => .accepted token (authBytes token) (List.replicate k' .pending ++ rest') []
      | _ => .failed (authBytes token) := by
    unfold hsClient
    have hfr : Auth.encode Auth.clientCodec.init (.auth token) = (.ack, authBytes token) := by
      simp [Auth.encode, authBytes, Auth.WIRE_ID]
    rw [hfr]
    simp only
    have hsend := hwc.send
    rcases hs : ({} : Writer).sendAwait (authBytes token) ec.sendAns with ⟨o, w⟩
    rw [hs] at hsend
    cases hsend
    obtain ⟨hw, hb⟩ := (sendAwait_fresh _ _ hs).2 rfl
    have hfl := flushAwait_ok w hb ec.flushAns
    rw [hwc.flush] at hfl
    rcases hf : w.flushAwait ec.flushAns with ⟨o2, w2⟩
    rw [hf] at hfl
    cases hfl
    obtain ⟨hw2, -⟩ := flushAwait_empty w hb _ hf
    simp only [hf]
    rw [hec, h1']
    cases authn token
    · simp only [Bool.false_eq_true, if_false, if_true]; rw [hw2, hw]
    · simp only [if_true, (by decide : ¬ (1 : UInt8) = 0), if_false]; rw [hw2, hw, h3']
  constructor
  · intro hau
    refine ⟨k, k', ?_, ?_⟩
    · rw [hau] at hws
      unfold hsServer
      rw [hes, h1]
      simp only [hau, if_true]
      have hfr : (Auth.encode r.st .ack).2 = [1, 1] := rfl
      rw [hfr]
      have hsend := hws.send
      rcases hs : ({} : Writer).sendAwait [1, 1] es.sendAns with ⟨o, w⟩
      rw [if_pos rfl, hs] at hsend
      cases hsend
      obtain ⟨hw, hb⟩ := (sendAwait_fresh _ _ hs).2 rfl
      have hfl := flushAwait_ok w hb es.flushAns
      rw [hws.flush] at hfl
      rcases hf : w.flushAwait es.flushAns with ⟨o2, w2⟩
      rw [hf] at hfl
      cases hfl
      obtain ⟨hw2, -⟩ := flushAwait_empty w hb _ hf
      simp only [hf]
      rw [hw2, hw, h3]
    · rw [hcl, hau]; rfl
  · intro hau
    refine ⟨?_, ?_⟩
    · rw [hau] at hws
      unfold hsServer
      rw [hes, h1]
      simp only [hau, Bool.false_eq_true, if_false]
      unfold hsReject
      have hfr : (Auth.encode .ack .reject).2 = [1, 0] := rfl
      rw [hfr]
      have hsend := hws.send
      rcases hs : ({} : Writer).sendAwait [1, 0] es.sendAns with ⟨o, w⟩
      rw [if_neg (by simp), hs] at hsend
      cases hsend
      obtain ⟨hw, hb⟩ := (sendAwait_fresh _ _ hs).2 rfl
      have hfl := flushAwait_ok w hb es.flushAns
      rw [hws.flush] at hfl
      rcases hf : w.flushAwait es.flushAns with ⟨o2, w2⟩
      rw [hf] at hfl
      cases hfl
      obtain ⟨hw2, hb2⟩ := flushAwait_empty w hb _ hf
      have hcl' := flushAwait_ok w2 hb2 es.closeAns
      simp only [hf]
      rcases hg : w2.flushAwait es.closeAns with ⟨o3, w3⟩
      obtain ⟨hw3, -⟩ := flushAwait_empty w2 hb2 _ hg
      rw [hg] at hcl'
      have hne := hws.close
      rw [← hcl'] at hne
      cases o3 with
      | pending => exact absurd rfl hne
      | ok => simp only [hs, hf, hg]; rw [hw3, hw2, hw]
      | err => simp only [hs, hf, hg]; rw [hw3, hw2, hw]
    · rw [hcl, hau]; rfl

/-- C98, what is left out of completion: a token cut at a dangerous place kills the server's handshake task, whatever
the authenticator would have said; the client, which is not answered, does not use the connection. -/
theorem C98_dangerous_cut (token : Bytes) (htok : token.length < 2 ^ 32) (authn : Bytes → Bool) (ec es : HsEnv)
    (h : HsPair token authn ec es) (l rest : List ReadAns) (hes : es.reads = l ++ rest) (hl : OpenAns l) (hld : dataOf l = authBytes token)
    (hcut : ∃ l1 l2, l = l1 ++ l2 ∧ dangerous token.length (dataOf l1).length) :
    hsServer authn es = .panicked ∧ ¬ hsDone (hsClient token ec) := by
  have hp : hsServer authn es = .panicked := by
    unfold hsServer
    rw [hes, (server_reads token htok l rest hl hld).2 hcut]
  refine ⟨hp, ?_⟩
  cases hc : hsClient token ec with
  | accepted id w r l =>
    obtain ⟨-, -, h1 | h1 | h1⟩ := C98_client_proceeds_only_if_accepted token htok authn ec es h id w r l hc
    · obtain ⟨_, _, h1⟩ := h1; rw [hp] at h1; cases h1
    · rw [hp] at h1; cases h1
    · rw [hp] at h1; cases h1
  | waiting w => exact fun q => q
  | failed w => exact fun q => q
  | panicked => exact fun q => q

/-- C98, one end expects authentication, the other does not take part: a server with an authenticator admits nobody who
starts with request or subscription frames, and sends them nothing; a client with a token does not use a connection
to a server that answers with response or message frames. -/
theorem C98_mismatch_fails_safe (authn : Bytes → Bool) (token : Bytes) (e : HsEnv)
    (hfrom : (∃ ms : List ReqRep.Message, dataOf e.reads <+: ms.flatMap ReqRep.encode) ∨
      (∃ ms : List PubSub.Message, dataOf e.reads <+: ms.flatMap PubSub.encode)) :
    (¬ hsDone (hsServer authn e) ∧ hsWire (hsServer authn e) = []) ∧ ¬ hsDone (hsClient token e) := by
  have hne : ∀ t, dataOf e.reads ≠ 1 :: t := by
    intro t ht
    rw [ht] at hfrom
    rcases hfrom with ⟨ms, x, hx⟩ | ⟨ms, x, hx⟩
    · cases ms with
      | nil => simp at hx
      | cons m ms =>
        have h1 := congrArg List.head? hx
        have h2 := (C10_frames_start_with_their_id m ⟨⟨0, 0, [], 0, 0, 0⟩, []⟩ .ack .ack).1
        simp [List.flatMap_cons, List.head?_append, h2] at h1
    · cases ms with
      | nil => simp at hx
      | cons m ms =>
        have h1 := congrArg List.head? hx
        have h2 := (C10_frames_start_with_their_id ⟨⟨0, 0, 0⟩, []⟩ m .ack .ack).2.1
        simp [List.flatMap_cons, List.head?_append, h2] at h1
  have hno : ∀ (pre rest : List ReadAns) t, e.reads = pre ++ rest → dataOf pre ≠ 1 :: t := by
    intro pre rest t hp hd
    exact hne (t ++ dataOf rest) (by rw [hp, dataOf_append, hd]; rfl)
  refine ⟨?_, ?_⟩
  · have hs := C30_handshake authn e
    cases hc : hsServer authn e with
    | accepted id w r l =>
      rw [hc] at hs
      obtain ⟨-, -, -, pre, hp, hd⟩ := hs
      exact absurd hd (hno pre r _ hp)
    | waiting w =>
      rw [hc] at hs
      rcases hs with h | ⟨id, pre, rest, lost, -, hp, hd, -⟩
      · exact ⟨fun q => q, h⟩
      · exact absurd hd (hno pre rest _ hp)
    | failed w =>
      rw [hc] at hs
      rcases hs with h | ⟨id, pre, rest, lost, -, hp, hd, -⟩
      · exact ⟨fun q => q, h⟩
      · exact absurd hd (hno pre rest _ hp)
    | panicked => exact ⟨fun q => q, rfl⟩
  · have hs := C31_client_needs_ack token e
    cases hc : hsClient token e with
    | accepted id w r l =>
      rw [hc] at hs
      obtain ⟨-, -, pre, a, hp, -, hd⟩ := hs
      exact absurd hd (hno pre r _ hp)
    | waiting w => exact fun q => q
    | failed w => exact fun q => q
    | panicked => exact fun q => q

/-- C98 for the request socket: with a token, every connection it ever used for requests had been granted by the
authenticator of the server at its other end. -/
theorem C98_request_socket (D : Decompressors) (opts comp) (s : Req.State) (h : ReqReach D opts comp s) (tok : Bytes)
    (ht : opts.token = some tok) (htok : tok.length < 2 ^ 32) (c : Req.Chan) (hc : c ∈ s.chans) (authn : Bytes → Bool) (es : HsEnv)
    (hpair : HsPair tok authn c.via es) : authn tok = true ∧ hsWire (hsServer authn es) = [1, 1] := by
  obtain ⟨wire, lost, -, -, h1, -⟩ := C31_request_socket D opts comp s h tok ht c hc
  obtain ⟨h2, h3, -⟩ := C98_client_proceeds_only_if_accepted tok htok authn c.via es hpair _ _ _ _ h1
  exact ⟨h2, h3⟩

/-- C98 for the subscriber socket. -/
theorem C98_subscriber_socket [DecidableEq A] (L : Lossy) (D : Decompressors) (d : Sub.Driver A) (h : Sub.Reach L D d) (tok : Bytes)
    (ht : d.opts.token = some tok) (htok : tok.length < 2 ^ 32) (s : Sub.Session) (hs : s ∈ d.sessions) (authn : Bytes → Bool) (es : HsEnv)
    (hpair : HsPair tok authn s.via es) : authn tok = true ∧ hsWire (hsServer authn es) = [1, 1] := by
  obtain ⟨wire, lost, -, -, h1, -⟩ := C31_subscriber_socket L D d h tok ht s hs
  obtain ⟨h2, h3, -⟩ := C98_client_proceeds_only_if_accepted tok htok authn s.via es hpair _ _ _ _ h1
  exact ⟨h2, h3⟩

/-- The hypotheses are met: a token of seven bytes cut after two bytes and, safely, after six; the Ack arrives byte by byte; both ends go on. -/
example :
    let tok : Bytes := [1, 2, 3, 4, 5, 6, 7]
    let es : HsEnv := ⟨[.data [1, 0], .pending, .data [0, 0, 7, 1], .data [2, 3, 4, 5, 6, 7], .data [9]], [.ok 1, .pending, .ok 5, .ok 1], [.ok 1], [.ok 1]⟩
    let ec : HsEnv := ⟨[.pending, .data [1], .data [1], .data [8]], [.ok 5, .ok 100, .ok 1], [.ok 1], [.ok 1]⟩
    hsServer (· == tok) es = .accepted tok [1, 1] [.data [9]] [] ∧ hsClient tok ec = .accepted tok (authBytes tok) [.data [8]] [] ∧
    HsPair tok (· == tok) ec es := by
  intro tok es ec
  have h1 : hsServer (· == tok) es = .accepted tok [1, 1] [.data [9]] [] := by decide +kernel
  have h2 : hsClient tok ec = .accepted tok (authBytes tok) [.data [8]] [] := by decide +kernel
  refine ⟨h1, h2, ⟨⟨[9], fun _ => ?_, ?_⟩, ⟨[8], fun _ => ?_, ?_⟩⟩⟩
  · rw [h2]; trivial
  · rw [h2]; exact ⟨[], by decide⟩
  · rw [h1]; trivial
  · rw [h1]; exact ⟨[], by decide⟩

/-- … a token that is not accepted: both ends give up; the hypotheses of completion are met in this case and in the one above. -/
example :
    let tok : Bytes := [1, 2, 3, 4, 5, 6, 7]
    let es : HsEnv := ⟨[.data [1, 0], .pending, .data [0, 0, 7, 1], .data [2, 3, 4, 5, 6, 7]], [.ok 1, .pending, .ok 5, .ok 1], [.ok 1], [.ok 1]⟩
    let ec : HsEnv := ⟨[.pending, .data [1], .data [0]], [.ok 5, .ok 100, .ok 1], [.ok 1], [.ok 1]⟩
    hsServer (fun _ => false) es = .failed [1, 0] ∧ hsClient tok ec = .failed (authBytes tok) ∧
    Writable (authBytes tok) ec ∧ Writable [1, 0] es ∧ Writable [1, 1] es ∧
    (∀ l1 l2, es.reads = l1 ++ l2 → ¬ dangerous tok.length (dataOf l1).length) := by
  intro tok es ec
  refine ⟨by decide +kernel, by decide +kernel, ⟨by decide, by decide, by decide⟩, ⟨by decide, by decide, by decide⟩, ⟨by decide, by decide, by decide⟩, ?_⟩
  intro l1 l2 h
  have hl : l1 = es.reads.take l1.length := by rw [h]; simp
  have hle : l1.length ≤ 4 := by have := congrArg List.length h; simp [es] at this; omega
  have : ∀ n ≤ 4, ¬ dangerous tok.length (dataOf (es.reads.take n)).length := by unfold dangerous; decide
  rw [hl]
  exact this _ hle

/-- … a dangerous cut: the valid token is never looked at. -/
example :
    let es : HsEnv := ⟨[.data [1, 0, 0, 0], .data [1, 7]], [.ok 2, .ok 1], [.ok 1], [.ok 1]⟩
    let ec : HsEnv := ⟨[.data []], [.ok 100, .ok 1], [.ok 1], [.ok 1]⟩
    HsPair [7] (fun _ => true) ec es ∧ hsServer (fun _ => true) es = .panicked ∧ hsClient [7] ec = .failed (authBytes [7]) := by
  intro es ec
  have h1 : hsServer (fun _ => true) es = .panicked := by decide +kernel
  have h2 : hsClient [7] ec = .failed (authBytes [7]) := by decide +kernel
  refine ⟨⟨⟨[], fun q => absurd rfl q, ?_⟩, ⟨[], fun q => absurd rfl q, ?_⟩⟩, h1, h2⟩
  · rw [h2]; exact ⟨[], by decide⟩
  · rw [h1]; exact ⟨[], by decide⟩

end MsgRs.Props
