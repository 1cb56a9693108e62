import Verif.Proofs.FramedAny
import Verif.Proofs.Codecs
namespace MsgRs.Auth
open MsgRs

/-- The announced id length in the bytes after the wire id. -/
def idLen (t : Bytes) : Nat :=
  (UInt32.ofNat (beNat [t.getD 0 0, t.getD 1 0, t.getD 2 0, t.getD 3 0])).toNat

/-- Closed form of the server arm, with its panics. -/
theorem decodeServer_eq (src : Bytes) : decodeServer src =
    match src with
    | [] => .ok (.more, .authReceive, [])
    | w :: t =>
      if w ≠ WIRE_ID then .ok (.err (.wireId w), .authReceive, w :: t)
      else if t.length < 3 then .ok (.more, .authReceive, w :: t)
      else if t.length = 3 then .panic
      else if t.length + 1 < idLen t then .ok (.more, .authReceive, w :: t)
      else if t.length - 4 < idLen t then .panic
      else .ok (.item (.auth ((t.drop 4).take (idLen t))), .ack, (t.drop 4).drop (idLen t)) := by
  cases src with
  | nil => rfl
  | cons w t =>
    simp only [decodeServer, List.isEmpty_cons, Bool.false_eq_true, if_false, rget_cons_zero,
      R.bind_ok, R.pure_eq]
    by_cases hw : w = WIRE_ID
    · simp only [hw, ne_eq, not_true_eq_false, if_false]
      by_cases h3 : t.length < 3
      · rw [if_pos (by simp; omega), if_pos h3]
      · rw [if_neg (by simp; omega), if_neg h3]
        obtain ⟨a, t, rfl, h⟩ := length_ge_cons (n := 2) (l := t) (by omega)
        obtain ⟨b, t, rfl, h⟩ := length_ge_cons (n := 1) (l := t) (by omega)
        obtain ⟨c, t, rfl, h⟩ := length_ge_cons (n := 0) (l := t) (by omega)
        cases t with
        | nil => simp [rget]
        | cons d t =>
          have e1 : rget (WIRE_ID :: a :: b :: c :: d :: t) 1 = .ok a := by simp
          have e2 : rget (WIRE_ID :: a :: b :: c :: d :: t) 2 = .ok b := by simp
          have e3 : rget (WIRE_ID :: a :: b :: c :: d :: t) 3 = .ok c := by simp
          have e4 : rget (WIRE_ID :: a :: b :: c :: d :: t) 4 = .ok d := by simp
          have en : idLen (a :: b :: c :: d :: t) = (UInt32.ofNat (beNat [a, b, c, d])).toNat := rfl
          rw [e1, R.bind_ok, e2, R.bind_ok, e3, R.bind_ok, e4, R.bind_ok, en]
          generalize (UInt32.ofNat (beNat [a, b, c, d])).toNat = n
          rw [if_neg (by simp : ¬ (a :: b :: c :: d :: t).length = 3)]
          by_cases hl : (a :: b :: c :: d :: t).length + 1 < n
          · rw [if_pos (by simpa using hl), if_pos hl]
          · rw [if_neg (by simpa using hl), if_neg hl, advance_ok (by simp), R.bind_ok]
            simp only [List.drop_succ_cons, List.drop_zero]
            rw [advance_ok (by simp), R.bind_ok]
            simp only [List.drop_succ_cons, List.drop_zero, List.length_cons]
            by_cases hn : t.length < n
            · rw [if_pos (by omega)]
              unfold splitTo
              rw [if_neg (by omega)]
              rfl
            · rw [if_neg (by omega), splitTo_ok (by omega)]
              simp
    · simp [hw]

theorem decodeClient_eq (src : Bytes) : decodeClient src =
    match src with
    | w :: a :: t =>
      if w ≠ WIRE_ID then .ok (.err (.wireId w), .ack, w :: a :: t)
      else if a = 0 then .ok (.err .rejected, .ack, t)
      else .ok (.item .ack, .ack, t)
    | src => .ok (.more, .ack, src) := by
  match src with
  | [] => rfl
  | [w] => rfl
  | w :: a :: t =>
    simp only [decodeClient]
    rw [if_neg (by simp), rget_cons_zero, R.bind_ok]
    by_cases hw : w = WIRE_ID
    · simp only [hw, ne_eq, not_true_eq_false, if_false]
      rw [advance_ok (by simp), R.bind_ok]
      simp only [List.drop_succ_cons, List.drop_zero]
      rw [getU8_ok (by simp), R.bind_ok]
      have : UInt8.ofNat (beNat ((a :: t).take 1)) = a := by simp [beNat]
      simp only [this, R.pure_eq, List.drop_succ_cons, List.drop_zero]
    · simp [hw]

theorem idLen_put (id rest : Bytes) (h : id.length < 2 ^ 32) :
    idLen (putU32 (UInt32.ofNat id.length) ++ rest) = id.length := by
  have hu : ∀ y : UInt32, ∃ a b c d, putU32 y = [a, b, c, d] := fun y => ⟨_, _, _, _, rfl⟩
  obtain ⟨a, b, c, d, hab⟩ := hu (UInt32.ofNat id.length)
  have hnum := beNat_putU32 (UInt32.ofNat id.length)
  rw [hab] at hnum ⊢
  show (UInt32.ofNat (beNat [a, b, c, d])).toNat = _
  rw [hnum]
  simp; omega

theorem encode_auth (s : State) (id : Bytes) : (encode s (.auth id)).2 =
    WIRE_ID :: (putU32 (UInt32.ofNat id.length) ++ id) := by simp [encode]

/-- The frame a client sends, auth.rs:122-128. -/
theorem decodeServer_prefix (id b x rest : Bytes) (hid : id.length < 2 ^ 32)
    (h : b ++ x = WIRE_ID :: (putU32 (UInt32.ofNat id.length) ++ id) ++ rest) :
    decodeServer b =
      if b.length < 4 then .ok (.more, .authReceive, b)
      else if b.length = 4 then .panic
      else if b.length < id.length then .ok (.more, .authReceive, b)
      else if b.length < id.length + 5 then .panic
      else .ok (.item (.auth id), .ack, b.drop (id.length + 5)) := by
  cases b with
  | nil => rfl
  | cons w t =>
    simp only [List.cons_append, List.cons.injEq] at h
    obtain ⟨rfl, h⟩ := h
    rw [decodeServer_eq]
    simp only [ne_eq, not_true_eq_false, if_false, List.length_cons]
    by_cases h3 : t.length < 3
    · rw [if_pos h3, if_pos (by omega)]
    · rw [if_neg h3, if_neg (by omega : ¬ (t.length + 1 < 4))]
      by_cases h4 : t.length = 3
      · rw [if_pos h4, if_pos (by omega)]
      · rw [if_neg h4, if_neg (by omega : ¬ (t.length + 1 = 4))]
        have hidl : idLen t = id.length := by
          have h0 := idLen_put id (id ++ rest) hid
          rw [List.append_assoc] at h
          rw [← h] at h0
          rw [← h0]
          obtain ⟨a, t, rfl, hh⟩ := length_ge_cons (n := 3) (l := t) (by omega)
          obtain ⟨b, t, rfl, hh⟩ := length_ge_cons (n := 2) (l := t) (by omega)
          obtain ⟨c, t, rfl, hh⟩ := length_ge_cons (n := 1) (l := t) (by omega)
          obtain ⟨d, t, rfl, hh⟩ := length_ge_cons (n := 0) (l := t) (by omega)
          rfl
        rw [hidl]
        by_cases h5 : t.length + 1 < id.length
        · rw [if_pos h5, if_pos h5]
        · rw [if_neg h5, if_neg h5]
          by_cases h6 : t.length - 4 < id.length
          · rw [if_pos h6, if_pos (by omega)]
          · rw [if_neg h6, if_neg (by omega : ¬ (t.length + 1 < id.length + 5))]
            have e1 : (t.drop 4).take id.length = id := by
              have : ((t ++ x).drop 4).take id.length = id := by
                rw [h, List.append_assoc, List.drop_append_of_le_length (by simp)]
                rw [List.drop_of_length_le (by simp)]
                simp
              rw [List.drop_append_of_le_length (by omega),
                List.take_append_of_le_length (by simp; omega)] at this
              exact this
            rw [e1]
            simp [Nat.add_comm]

/-- Cut positions at which the server-side decoder panics. -/
def BadCut (len p : Nat) : Prop := p = 4 ∨ (5 ≤ p ∧ len ≤ p ∧ p < len + 5)

instance (len p : Nat) : Decidable (BadCut len p) := by unfold BadCut; infer_instance

theorem next_server (id rest : Bytes) (hid : id.length < 2 ^ 32) (cs : List Bytes) :
    ∀ (b : Bytes) (r : Reader State), r.st = .authReceive → r.buf = b → r.eof = false →
      r.errored = false → r.readable = false → (∀ c ∈ cs, c ≠ []) →
      b ++ cs.flatten = WIRE_ID :: (putU32 (UInt32.ofNat id.length) ++ id) ++ rest →
      b.length < id.length + 5 →
      ((∀ k, k ≤ cs.length → 0 < k → ¬ BadCut id.length (b ++ (cs.take k).flatten).length) →
        ∃ r' cs', r.pollNext serverCodec (cs.map .data) =
          .ok (.item (.auth id), r', List.map .data cs') ∧ r'.st = .ack ∧ r'.buf ++ cs'.flatten = rest) ∧
      ((∃ k, k ≤ cs.length ∧ 0 < k ∧ BadCut id.length (b ++ (cs.take k).flatten).length) →
        r.pollNext serverCodec (cs.map .data) = .panic) := by
  induction cs with
  | nil =>
    intro b r _ _ _ _ _ _ h hl
    have := congrArg List.length h
    simp at this
    omega
  | cons c cs ih =>
    intro b r hst hbuf heof herr hread hcs h hl
    have hc : c ≠ [] := hcs c (List.mem_cons_self ..)
    obtain ⟨c0, ct, rfl⟩ := List.exists_cons_of_ne_nil hc
    have hp : r.pollNext serverCodec ((c0 :: ct) :: cs |>.map .data) = Reader.pollNext serverCodec
        { r with buf := b ++ (c0 :: ct), eof := false, readable := true } (cs.map .data) := by
      simp only [List.map_cons]
      rw [Reader.pollNext]
      simp [Reader.frame, herr, hread, hbuf]
    rw [hp]
    generalize hb' : b ++ (c0 :: ct) = b'
    have hfl : b' ++ cs.flatten = WIRE_ID :: (putU32 (UInt32.ofNat id.length) ++ id) ++ rest := by
      rw [← h, ← hb']; simp
    have hdec := decodeServer_prefix id b' cs.flatten rest hid hfl
    -- the frame step of the reader with the new buffer
    have hframe : Reader.frame serverCodec
        { r with buf := b', eof := false, readable := true } =
        (decodeServer b' >>= fun x =>
          match x.1 with
          | .item m => .ok (some (.item m), { r with st := x.2.1, buf := x.2.2, eof := false,
                                                     readable := true })
          | .err e => .ok (some (.err e), { r with st := x.2.1, buf := x.2.2, eof := false,
                                                   readable := true, errored := true })
          | .more => .ok (none, { r with st := x.2.1, buf := x.2.2, eof := false,
                                         readable := false })) := by
      simp only [Reader.frame, herr, Bool.false_eq_true, if_false, if_true, serverCodec, hst, decode]
      cases decodeServer b' with
      | panic => rfl
      | ok x => obtain ⟨d, s, bb⟩ := x; cases d <;> rfl
    have hk1 : (b ++ (((c0 :: ct) :: cs).take 1).flatten) = b' := by
      rw [← hb']; simp
    have hk : ∀ k, (b ++ (((c0 :: ct) :: cs).take (k + 1)).flatten) = b' ++ (cs.take k).flatten := by
      intro k; rw [← hb']; simp
    by_cases hbad : BadCut id.length b'.length
    · have hpan : decodeServer b' = .panic := by
        rw [hdec]
        rcases hbad with h4 | ⟨h5, h6, h7⟩
        · rw [if_neg (by omega), if_pos h4]
        · rw [if_neg (by omega), if_neg (by omega), if_neg (by omega), if_pos h7]
      constructor
      · intro hno
        exact absurd (by rw [hk1]; exact hbad) (hno 1 (by simp) (by omega))
      · intro _
        rw [hpan] at hframe
        cases cs <;> simp [Reader.pollNext, hframe]
    · by_cases hfull : id.length + 5 ≤ b'.length
      · have hit : decodeServer b' = .ok (.item (.auth id), .ack, b'.drop (id.length + 5)) := by
          rw [hdec, if_neg (by omega), if_neg (by omega), if_neg (by omega), if_neg (by omega)]
        rw [hit] at hframe
        simp only [R.bind_ok] at hframe
        constructor
        · intro _
          refine ⟨{ st := .ack, buf := b'.drop (id.length + 5), eof := false, readable := true,
                    errored := r.errored }, cs, ?_, rfl, ?_⟩
          · cases cs <;> simp only [List.map_nil, List.map_cons, Reader.pollNext, hframe, R.bind_ok] <;> rfl
          · have h1 := congrArg (List.drop (id.length + 5)) hfl
            rw [List.drop_append_of_le_length hfull] at h1
            show b'.drop (id.length + 5) ++ cs.flatten = rest
            rw [h1]
            have : id.length + 5 = (WIRE_ID :: (putU32 (UInt32.ofNat id.length) ++ id)).length := by
              simp; omega
            rw [this, List.drop_left]
        · rintro ⟨k, hk2, hk0, hkb⟩
          obtain ⟨k, rfl⟩ : ∃ j, k = j + 1 := ⟨k - 1, by omega⟩
          rw [hk] at hkb
          unfold BadCut at hkb
          simp at hkb
          omega
      · have hmore : decodeServer b' = .ok (.more, .authReceive, b') := by
          unfold BadCut at hbad
          rw [hdec]
          by_cases h4 : b'.length < 4
          · rw [if_pos h4]
          · rw [if_neg h4, if_neg (by omega), if_pos (by omega)]
        rw [hmore] at hframe
        simp only [R.bind_ok] at hframe
        have hcs' : ∀ c ∈ cs, c ≠ [] := fun c hc => hcs c (List.mem_cons_of_mem _ hc)
        have hih := ih b' { r with st := .authReceive, buf := b', eof := false, readable := false }
          rfl rfl rfl herr rfl hcs' hfl (by omega)
        have hpn : Reader.pollNext serverCodec
            { r with buf := b', eof := false, readable := true } (cs.map .data) =
            Reader.pollNext serverCodec
            { r with st := .authReceive, buf := b', eof := false, readable := false }
              (cs.map .data) := by
          cases cs with
          | nil =>
            have := congrArg List.length hfl
            simp at this
            omega
          | cons c1 cs =>
            simp only [List.map_cons, Reader.pollNext, hframe, R.bind_ok]
            simp [Reader.frame, herr]
        rw [hpn]
        constructor
        · intro hno
          refine hih.1 ?_
          intro k hk1 hk0
          have := hno (k + 1) (by simp; omega) (by omega)
          rwa [hk] at this
        · rintro ⟨k, hk2, hk0, hkb⟩
          obtain ⟨k, rfl⟩ : ∃ j, k = j + 1 := ⟨k - 1, by omega⟩
          rw [hk] at hkb
          refine hih.2 ⟨k, by simpa using hk2, ?_, hkb⟩
          cases k with
          | zero => simp at hkb; exact absurd hkb hbad
          | succ k => omega

theorem decodeClient_more {b s' b'} (h : decodeClient b = .ok (.more, s', b')) :
    s' = .ack ∧ b' = b ∧ b.length < 2 := by
  rw [decodeClient_eq] at h
  match b with
  | [] => cases h; simp
  | [w] => cases h; simp
  | w :: a :: t =>
    simp only at h
    split at h
    · cases h
    · split at h <;> cases h

theorem decodeClient_item {b m s' b'} (h : decodeClient b = .ok (.item m, s', b')) :
    m = .ack ∧ ∃ a t, b = WIRE_ID :: a :: t ∧ a ≠ 0 := by
  rw [decodeClient_eq] at h
  match b with
  | [] => cases h
  | [w] => cases h
  | w :: a :: t =>
    simp only at h
    split at h
    · cases h
    · split at h
      · cases h
      · rename_i h1 h2
        cases h
        exact ⟨rfl, a, _, by simp at h1; rw [h1], h2⟩

/-- Whatever the connection does, the client's handshake read succeeds only on an Ack. -/
theorem client_pollNext_item (as : List ReadAns) (r : Reader State) (hst : r.st = .ack)
    (herr : r.errored = false) {m r' as'}
    (h : r.pollNext clientCodec as = .ok (.item m, r', as')) :
    m = .ack ∧ ∃ a t, r.buf ++ dataOf as = WIRE_ID :: a :: t ∧ a ≠ 0 := by
  have fr : ∀ (r : Reader State), r.st = .ack → r.errored = false → ∀ o r1,
      r.frame clientCodec = .ok (o, r1) →
      (∀ m, o = some (.item m) → m = .ack ∧ ∃ a t, r.buf = WIRE_ID :: a :: t ∧ a ≠ 0) ∧
      (o = none → r1.st = .ack ∧ r1.errored = false ∧ r1.buf = r.buf) := by
    intro r hst herr o r1 hf
    unfold Reader.frame at hf
    rw [if_neg (by simp [herr])] at hf
    split at hf
    · simp only [clientCodec, hst, decode] at hf
      cases hd : decodeClient r.buf with
      | panic => rw [hd] at hf; simp at hf
      | ok x =>
        obtain ⟨d, s', b'⟩ := x
        rw [hd] at hf
        simp only [R.bind_ok] at hf
        split at hf
        · cases d with
          | item m =>
            simp at hf
            obtain ⟨rfl, rfl⟩ := hf
            exact ⟨fun m hm => by cases hm; exact decodeClient_item hd, fun h => by simp at h⟩
          | err e => simp at hf; obtain ⟨rfl, rfl⟩ := hf; simp
          | more =>
            simp only at hf
            split at hf <;> (simp at hf; obtain ⟨rfl, rfl⟩ := hf; simp)
        · cases d with
          | item m =>
            simp at hf
            obtain ⟨rfl, rfl⟩ := hf
            exact ⟨fun m hm => by cases hm; exact decodeClient_item hd, fun h => by simp at h⟩
          | err e => simp at hf; obtain ⟨rfl, rfl⟩ := hf; simp
          | more =>
            simp at hf
            obtain ⟨rfl, rfl⟩ := hf
            obtain ⟨h1, h2, -⟩ := decodeClient_more hd
            exact ⟨by simp, fun _ => ⟨h1, herr, h2⟩⟩
    · simp at hf
      obtain ⟨rfl, rfl⟩ := hf
      exact ⟨by simp, fun _ => ⟨hst, herr, rfl⟩⟩
  induction as generalizing r with
  | nil =>
    cases hf : r.frame clientCodec with
    | panic => simp [Reader.pollNext, hf] at h
    | ok x =>
      obtain ⟨o, r1⟩ := x
      have := fr r hst herr o r1 hf
      cases o with
      | none => simp [Reader.pollNext, hf] at h
      | some o =>
        simp [Reader.pollNext, hf] at h
        obtain ⟨rfl, -⟩ := h
        simpa [dataOf] using this.1 m rfl
  | cons a as ih =>
    cases hf : r.frame clientCodec with
    | panic => simp [Reader.pollNext, hf] at h
    | ok x =>
      obtain ⟨o, r1⟩ := x
      have hfr := fr r hst herr o r1 hf
      cases o with
      | some o =>
        simp [Reader.pollNext, hf] at h
        obtain ⟨rfl, -⟩ := h
        obtain ⟨h1, a', t, h2, h3⟩ := hfr.1 m rfl
        exact ⟨h1, a', t ++ dataOf (a :: as), by rw [h2]; rfl, h3⟩
      | none =>
        obtain ⟨g1, g2, g3⟩ := hfr.2 rfl
        cases a with
        | pending => simp [Reader.pollNext, hf] at h
        | err => simp [Reader.pollNext, hf] at h
        | data bs =>
          cases bs with
          | nil =>
            simp only [Reader.pollNext, hf, R.bind_ok] at h
            split at h
            · simp at h
            · have := ih { r1 with eof := true, readable := true } g1 g2 h
              simpa [dataOf, g3] using this
          | cons b bs =>
            simp only [Reader.pollNext, hf, R.bind_ok] at h
            have := ih { r1 with buf := r1.buf ++ (b :: bs), eof := false, readable := true } g1 g2 h
            simpa [dataOf, g3] using this

end MsgRs.Auth
