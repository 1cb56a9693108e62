import Verif.Model.Handshake
import Verif.Proofs.Auth
import Verif.Proofs.Writer
import Verif.Proofs.FramedAny
/-!
# Facts about the handshake
-/
namespace MsgRs

/-- The frame of an authentication message with this token: wire id, length, token. -/
def Spec.authBytes (id : Bytes) : Bytes := 1 :: (putU32 (UInt32.ofNat id.length) ++ id)

namespace Auth

theorem decodeServer_more {b s' b'} (h : decodeServer b = .ok (.more, s', b')) :
    s' = .authReceive ∧ b' = b := by
  rw [decodeServer_eq] at h
  cases b with
  | nil => cases h; simp
  | cons w t =>
    simp only at h
    repeat' split at h
    all_goals first | cases h | skip
    all_goals simp

theorem beNat4_lt (a b c d : UInt8) : beNat [a, b, c, d] < 2 ^ 32 := by
  have h1 := a.toNat_lt; have h2 := b.toNat_lt
  have h3 := c.toNat_lt; have h4 := d.toNat_lt
  simp [beNat] at *; omega

theorem putU32_idLen (a b c d : UInt8) (t : Bytes) :
    putU32 (UInt32.ofNat (idLen (a :: b :: c :: d :: t))) = [a, b, c, d] := by
  have h1 : idLen (a :: b :: c :: d :: t) = beNat [a, b, c, d] := by
    show (UInt32.ofNat (beNat [a, b, c, d])).toNat = beNat [a, b, c, d]
    rw [UInt32.toNat_ofNat']
    exact Nat.mod_eq_of_lt (beNat4_lt a b c d)
  rw [h1]
  have h2 := beNat4_lt a b c d
  have ha := a.toNat_lt; have hb := b.toNat_lt
  have hc := c.toNat_lt; have hd := d.toNat_lt
  have hn : (UInt32.ofNat (beNat [a, b, c, d])).toNat = beNat [a, b, c, d] := by
    rw [UInt32.toNat_ofNat']; exact Nat.mod_eq_of_lt h2
  simp only [putU32, beBytes, hn, List.nil_append, List.cons_append]
  have hv : beNat [a, b, c, d] = ((a.toNat * 256 + b.toNat) * 256 + c.toNat) * 256 + d.toNat := by
    simp [beNat]
  rw [hv]
  have e1 : ∀ (x : UInt8) (n : Nat), n % 256 = x.toNat → UInt8.ofNat n = x := by
    intro x n h
    apply UInt8.toNat_inj.mp
    simp [h]
  rw [e1 a _ (by omega), e1 b _ (by omega), e1 c _ (by omega), e1 d _ (by omega)]

theorem decodeServer_item {b m s' b'} (h : decodeServer b = .ok (.item m, s', b')) :
    ∃ id, m = .auth id ∧ b = Spec.authBytes id ++ b' ∧ s' = .ack ∧ id.length < 2 ^ 32 := by
  rw [decodeServer_eq] at h
  cases b with
  | nil => cases h
  | cons w t =>
    simp only at h
    split at h
    · cases h
    · rename_i hw
      split at h
      · cases h
      · split at h
        · cases h
        · split at h
          · cases h
          · split at h
            · cases h
            · cases h
              have hw' : w = 1 := by simpa [WIRE_ID] using hw
              obtain ⟨a, t, rfl, _⟩ := length_ge_cons (n := 3) (l := t) (by omega)
              obtain ⟨b, t, rfl, _⟩ := length_ge_cons (n := 2) (l := t) (by omega)
              obtain ⟨c, t, rfl, _⟩ := length_ge_cons (n := 1) (l := t) (by omega)
              obtain ⟨d, t, rfl, _⟩ := length_ge_cons (n := 0) (l := t) (by omega)
              refine ⟨_, rfl, ?_, rfl, ?_⟩
              rotate_left
              · exact Nat.lt_of_le_of_lt (List.length_take_le ..) (UInt32.toNat_lt _)
              have hlen : idLen (a :: b :: c :: d :: t) ≤ t.length := by
                rename_i h1 _ _ _ _ _; simp at *; omega
              simp only [Spec.authBytes, hw', List.drop_succ_cons, List.drop_zero]
              have : (List.take (idLen (a :: b :: c :: d :: t)) t).length
                  = idLen (a :: b :: c :: d :: t) := by simp; omega
              rw [this, putU32_idLen]
              simp

end Auth

/-- What has been consumed when an awaited read returns an item, for a codec that only ever consumes whole
items. -/
theorem await_item (c : Codec σ ε μ)
    (P : Bytes → μ → Bytes → Prop) (s0 : σ)
    (hmore : ∀ b s' b', c.decode s0 b = .ok (.more, s', b') → s' = s0 ∧ b' = b)
    (hitem : ∀ b m s' b', c.decode s0 b = .ok (.item m, s', b') → P b m b')
    (as : List ReadAns) (r : Reader σ) (hst : r.st = s0) (herr : r.errored = false) {m r' as'}
    (h : r.await c as = .ok (.item m, r', as')) :
    ∃ pre, as = pre ++ as' ∧ P (r.buf ++ dataOf pre) m r'.buf := by
  have fr : ∀ (r : Reader σ), r.st = s0 → r.errored = false → ∀ o r1, r.frame c = .ok (o, r1) →
      (∀ m, o = some (.item m) → P r.buf m r1.buf) ∧
      (o = none → r1.st = s0 ∧ r1.errored = false ∧ r1.buf = r.buf) := by
    intro r hst herr o r1 hf
    unfold Reader.frame at hf
    rw [if_neg (by simp [herr])] at hf
    split at hf
    · cases hd : c.decode r.st r.buf with
      | panic => rw [hd] at hf; cases hf
      | ok t =>
        obtain ⟨d, st, buf⟩ := t
        rw [hd] at hf
        simp only [R.bind_ok, R.pure_eq] at hf
        rw [hst] at hd
        split at hf
        · cases d with
          | item m => cases hf; exact ⟨fun m' he => (by cases he; exact hitem _ _ _ _ hd), fun he => by cases he⟩
          | err e => cases hf; exact ⟨fun m' he => (by cases he), fun he => by cases he⟩
          | more =>
            simp only at hf
            split at hf <;> cases hf <;> exact ⟨fun m' he => (by cases he), fun he => by cases he⟩
        · cases d with
          | item m => cases hf; exact ⟨fun m' he => (by cases he; exact hitem _ _ _ _ hd), fun he => by cases he⟩
          | err e => cases hf; exact ⟨fun m' he => (by cases he), fun he => by cases he⟩
          | more =>
            cases hf
            obtain ⟨h1, h2⟩ := hmore _ _ _ hd
            exact ⟨fun m' he => (by cases he), fun _ => ⟨h1, herr, h2⟩⟩
    · cases hf
      exact ⟨fun m' he => (by cases he), fun _ => ⟨hst, herr, rfl⟩⟩
  induction as generalizing r with
  | nil =>
    simp only [Reader.await] at h
    cases hf : r.frame c with
    | panic => rw [hf] at h; cases h
    | ok t =>
      obtain ⟨o, r1⟩ := t
      rw [hf] at h
      simp only [R.bind_ok, R.pure_eq] at h
      cases o with
      | none => cases h
      | some o =>
        cases h
        exact ⟨[], rfl, by simpa [dataOf] using (fr r hst herr _ _ hf).1 m rfl⟩
  | cons a as ih =>
    simp only [Reader.await] at h
    cases hf : r.frame c with
    | panic => rw [hf] at h; cases h
    | ok t =>
      obtain ⟨o, r1⟩ := t
      rw [hf] at h
      simp only [R.bind_ok, R.pure_eq] at h
      cases o with
      | some o =>
        cases h
        exact ⟨[], rfl, by simpa [dataOf] using (fr r hst herr _ _ hf).1 m rfl⟩
      | none =>
        obtain ⟨h1, h2, h3⟩ := (fr r hst herr _ _ hf).2 rfl
        cases a with
        | pending =>
          simp only at h
          obtain ⟨pre, hp, hq⟩ := ih r1 h1 h2 h
          exact ⟨.pending :: pre, by simp [hp], by simpa [dataOf, h3] using hq⟩
        | err => cases h
        | data bs =>
          cases bs with
          | nil =>
            simp only at h
            split at h
            · cases h
            · obtain ⟨pre, hp, hq⟩ := ih { r1 with eof := true, readable := true } h1 h2 h
              exact ⟨.data [] :: pre, by simp [hp], by simpa [dataOf, h3] using hq⟩
          | cons x bs =>
            simp only at h
            obtain ⟨pre, hp, hq⟩ := ih { r1 with buf := r1.buf ++ (x :: bs), eof := false, readable := true } h1 h2 h
            exact ⟨.data (x :: bs) :: pre, by simp [hp], by simpa [dataOf, h3] using hq⟩

theorem server_await {as : List ReadAns} {m r' as'}
    (h : (Reader.new Auth.serverCodec).await Auth.serverCodec as = .ok (.item m, r', as')) :
    ∃ id pre, m = .auth id ∧ as = pre ++ as' ∧ dataOf pre = Spec.authBytes id ++ r'.buf ∧ id.length < 2 ^ 32 := by
  obtain ⟨pre, h1, h2⟩ := await_item Auth.serverCodec
    (fun b m b' => ∃ id, m = .auth id ∧ b = Spec.authBytes id ++ b' ∧ id.length < 2 ^ 32) .authReceive
    (fun b s' b' h => Auth.decodeServer_more h)
    (fun b m s' b' h => by
      obtain ⟨id, h1, h2, -, h3⟩ := Auth.decodeServer_item h
      exact ⟨id, h1, h2, h3⟩) as _ rfl rfl h
  obtain ⟨id, h3, h4, h5⟩ := h2
  exact ⟨id, pre, h3, h1, by simpa [Reader.new] using h4, h5⟩

theorem client_await {as : List ReadAns} {m r' as'}
    (h : ({ st := .ack } : Reader Auth.State).await Auth.clientCodec as = .ok (.item m, r', as')) :
    m = .ack ∧ ∃ pre a, as = pre ++ as' ∧ a ≠ 0 ∧ dataOf pre = 1 :: a :: r'.buf := by
  obtain ⟨pre, h1, h2⟩ := await_item Auth.clientCodec
    (fun b m b' => m = .ack ∧ ∃ a, a ≠ 0 ∧ b = 1 :: a :: b') .ack
    (fun b s' b' h => (Auth.decodeClient_more h).imp id (·.1))
    (fun b m s' b' h => by
      obtain ⟨h1, a, t, rfl, h3⟩ := Auth.decodeClient_item h
      refine ⟨h1, a, h3, ?_⟩
      replace h : Auth.decodeClient (Auth.WIRE_ID :: a :: t) = .ok (.item m, s', b') := h
      rw [Auth.decodeClient_eq] at h
      simp only [ne_eq, not_true_eq_false, if_false] at h
      rw [if_neg h3] at h
      cases h
      rfl) as _ rfl rfl h
  obtain ⟨h3, a, h4, h5⟩ := h2
  exact ⟨h3, pre, a, h1, h4, by simpa using h5⟩

/-- One frame sent on a fresh connection: the wire holds a prefix of it, all of it when the flush is over. -/
theorem sendAwait_fresh (frame : Bytes) (as : List WriteAns) {o w}
    (h : (({} : Writer).sendAwait frame as) = (o, w)) :
    w.wire ++ w.buf = frame ∧ (o = .ok → w.wire = frame ∧ w.buf = []) := by
  unfold Writer.sendAwait at h
  have hs := Writer.flush_spec (({} : Writer).send frame) (as.filter (· ≠ .pending))
  rw [h] at hs
  simp only [Writer.total, Writer.send, List.nil_append] at hs
  obtain ⟨h1, h2, -, h3, -⟩ := hs
  refine ⟨h1, fun ho => ?_⟩
  have := h3 ho
  rw [this] at h1
  exact ⟨by simpa using h1, this⟩

theorem flushAwait_empty (w : Writer) (hw : w.buf = []) (as : List WriteAns) {o w'}
    (h : w.flushAwait as = (o, w')) : w'.wire = w.wire ∧ w'.buf = [] := by
  unfold Writer.flushAwait at h
  have hs := Writer.flush_spec w (as.filter (· ≠ .pending))
  rw [h] at hs
  obtain ⟨-, -, -, -, h5⟩ := hs
  have := h5 hw
  simp only at this
  rw [this]
  exact ⟨rfl, hw⟩

/-- The client's decoder never panics. -/
theorem client_no_panic (as : List ReadAns) (r : Reader Auth.State) (hst : r.st = .ack) :
    r.await Auth.clientCodec as ≠ .panic := by
  have fr : ∀ (r : Reader Auth.State), r.st = .ack → ∃ o r1, r.frame Auth.clientCodec = .ok (o, r1) ∧
      r1.st = .ack := by
    intro r hst
    unfold Reader.frame
    split
    · exact ⟨_, _, rfl, hst⟩
    · split
      · have hd : Auth.clientCodec.decode r.st r.buf = Auth.decodeClient r.buf := by rw [hst]; rfl
        have : ∃ d b, Auth.decodeClient r.buf = .ok (d, .ack, b) := by
          rw [Auth.decodeClient_eq]
          repeat' split
          all_goals exact ⟨_, _, rfl⟩
        obtain ⟨d, b, hb⟩ := this
        rw [hd, hb]
        simp only [R.bind_ok, R.pure_eq]
        cases d <;> repeat' split
        all_goals exact ⟨_, _, rfl, rfl⟩
      · exact ⟨_, _, rfl, hst⟩
  induction as generalizing r with
  | nil =>
    obtain ⟨o, r1, h, -⟩ := fr r hst
    simp only [Reader.await, h, R.bind_ok, R.pure_eq]
    cases o <;> simp
  | cons a as ih =>
    obtain ⟨o, r1, h, h1⟩ := fr r hst
    simp only [Reader.await, h, R.bind_ok, R.pure_eq]
    cases o with
    | some o => simp
    | none =>
      cases a with
      | pending => exact ih r1 h1
      | err => simp
      | data bs =>
        cases bs with
        | nil =>
          simp only
          split
          · simp
          · exact ih _ h1
        | cons b bs => exact ih _ h1

end MsgRs
