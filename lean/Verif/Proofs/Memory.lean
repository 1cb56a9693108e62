import Verif.Spec.Memory
import Verif.Proofs.Writer
import Verif.Proofs.Bytes
import Verif.Proofs.Codecs
import Verif.Proofs.Track
/-!
# What readers, writers and sessions hold
-/
namespace MsgRs
open Spec

/-- A codec that waits for more only while it has at most `N` bytes, and never grows the buffer. -/
def Codec.Needs (c : Codec σ ε μ) (N : Nat) : Prop :=
  ∀ s b d s' b', c.decode s b = .ok (d, s', b') → b'.length ≤ b.length ∧ (d = .more → b'.length ≤ N)

/-- What bounds a reader's buffer. -/
structure RdMem (N C : Nat) (r : Reader σ) (as : List ReadAns) : Prop where
  fine : r.errored = false
  wait : r.readable = false → r.buf.length ≤ N
  buf : r.buf.length ≤ N + C
  ans : chunksUpTo C as

theorem rdMem_new (c : Codec σ ε μ) {N C : Nat} {as : List ReadAns} (h : chunksUpTo C as) : RdMem N C (Reader.new c) as :=
  ⟨rfl, by simp [Reader.new], by simp [Reader.new], h⟩

theorem frame_mem {c : Codec σ ε μ} {N C : Nat} (hc : c.Needs N) {r : Reader σ} (hf : r.errored = false)
    (hw : r.readable = false → r.buf.length ≤ N) (hb : r.buf.length ≤ N + C) {o r'} (h : r.frame c = .ok (o, r')) :
    r'.buf.length ≤ N + C ∧
    (o = none → r'.errored = false ∧ r'.buf.length ≤ N) ∧
    ((∃ m, o = some (.item m)) → r'.errored = false ∧ (r'.readable = false → r'.buf.length ≤ N)) ∧ o ≠ some .pending := by
  unfold Reader.frame at h
  rw [hf] at h
  simp only [Bool.false_eq_true, if_false] at h
  split at h
  · rename_i hr
    cases hd : c.decode r.st r.buf with
    | panic => rw [hd] at h; cases h
    | ok x =>
      obtain ⟨d, s', b'⟩ := x
      rw [hd] at h
      simp only [R.bind_ok] at h
      obtain ⟨h1, h2⟩ := hc _ _ _ _ _ hd
      have hb' : b'.length ≤ N + C := Nat.le_trans h1 hb
      split at h
      · cases d with
        | item m => cases h; exact ⟨hb', by simp, fun _ => ⟨rfl, by simp [hr]⟩, by simp⟩
        | err e => cases h; exact ⟨hb', by simp, by simp, by simp⟩
        | more =>
          by_cases hbe : b'.isEmpty
          · simp only [hbe, if_true] at h; cases h; exact ⟨hb', by simp, by simp, by simp⟩
          · simp only [hbe] at h; cases h; exact ⟨hb', by simp, by simp, by simp⟩
      · cases d with
        | item m => cases h; exact ⟨hb', by simp, fun _ => ⟨rfl, by simp [hr]⟩, by simp⟩
        | err e => cases h; exact ⟨hb', by simp, by simp, by simp⟩
        | more => cases h; exact ⟨hb', fun _ => ⟨rfl, h2 rfl⟩, by simp, by simp⟩
  · rename_i hr
    cases h
    exact ⟨hb, fun _ => ⟨hf, hw (by simpa using hr)⟩, by simp, by simp⟩

theorem pollNext_mem {c : Codec σ ε μ} {N C : Nat} (hc : c.Needs N) (as : List ReadAns) : ∀ (r : Reader σ), RdMem N C r as →
    ∀ {o r' as'}, r.pollNext c as = .ok (o, r', as') →
      r'.buf.length ≤ N + C ∧ (o = .pending ∨ (∃ m, o = .item m) → RdMem N C r' as') := by
  induction as with
  | nil =>
    intro r hr o r' as' h
    unfold Reader.pollNext at h
    cases hfr : r.frame c with
    | panic => rw [hfr] at h; cases h
    | ok x =>
      obtain ⟨o1, r1⟩ := x
      obtain ⟨k1, k2, k3, k4⟩ := frame_mem hc hr.fine hr.wait hr.buf hfr
      rw [hfr] at h
      simp only [R.bind_ok] at h
      cases o1 with
      | none => cases h; exact ⟨k1, fun _ => ⟨(k2 rfl).1, fun _ => (k2 rfl).2, k1, hr.ans⟩⟩
      | some o1 =>
        cases h
        refine ⟨k1, ?_⟩
        rintro (rfl | ⟨m, rfl⟩)
        · exact absurd rfl k4
        · exact ⟨(k3 ⟨m, rfl⟩).1, (k3 ⟨m, rfl⟩).2, k1, hr.ans⟩
  | cons a as ih =>
    intro r hr o r' as' h
    have hans : chunksUpTo C as := fun bs hbs => hr.ans bs (.tail _ hbs)
    unfold Reader.pollNext at h
    cases hfr : r.frame c with
    | panic => rw [hfr] at h; cases h
    | ok x =>
      obtain ⟨o1, r1⟩ := x
      obtain ⟨k1, k2, k3, k4⟩ := frame_mem hc hr.fine hr.wait hr.buf hfr
      rw [hfr] at h
      simp only [R.bind_ok] at h
      cases o1 with
      | some o1 =>
        cases h
        refine ⟨k1, ?_⟩
        rintro (rfl | ⟨m, rfl⟩)
        · exact absurd rfl k4
        · exact ⟨(k3 ⟨m, rfl⟩).1, (k3 ⟨m, rfl⟩).2, k1, hr.ans⟩
      | none =>
        obtain ⟨j1, j2⟩ := k2 rfl
        cases a with
        | pending => cases h; exact ⟨k1, fun _ => ⟨j1, fun _ => j2, k1, hans⟩⟩
        | err => cases h; exact ⟨k1, by simp⟩
        | data bs =>
          cases bs with
          | nil =>
            simp only at h
            split at h
            · cases h; exact ⟨k1, by simp⟩
            · exact ih { r1 with eof := true, readable := true } ⟨j1, by simp, k1, hans⟩ h
          | cons b bs =>
            simp only at h
            refine ih { r1 with buf := r1.buf ++ (b :: bs), eof := false, readable := true } ⟨j1, by simp, ?_, hans⟩ h
            have := hr.ans (b :: bs) (.head _)
            simp only [List.length_append]
            omega

theorem polled_mem {c : Codec σ ε μ} {N C : Nat} (hc : c.Needs N) {as : List ReadAns} (has : chunksUpTo C as) {r : Reader σ} {rest}
    (h : Polled c as r rest) : RdMem N C r rest := by
  induction h with
  | new => exact rdMem_new c has
  | poll _ h2 h3 ih => exact (pollNext_mem hc _ _ ih h2).2 h3

theorem Reads.polled {c : Codec σ ε μ} {as : List ReadAns} {n l} {r : Reader σ} {rest} (h : Reads c as n l r rest) : Polled c as r rest := by
  induction h with
  | start => exact .new
  | idle _ h ih => exact .poll ih h (.inl rfl)
  | item _ h ih => exact .poll ih h (.inr ⟨_, rfl⟩)

theorem ReadInv.mem {c : Codec σ ε μ} {N C : Nat} (hc : c.Needs N) {as : List ReadAns} (has : chunksUpTo C as) {n l} {r : Reader σ} {rest}
    (h : ReadInv c as n l r rest) : r.buf.length ≤ N + C := by
  rcases h with h | ⟨-, ⟨n0, r0, as0, e0, h, hp⟩, -⟩
  · exact (polled_mem hc has h.polled).buf
  · exact (pollNext_mem hc _ _ (polled_mem hc has h.polled) hp).1

/-- What bounds the buffer of a reader that is polled on and on, while nothing it reads is malformed. -/
structure RdOk (N C : Nat) (r : Reader σ) (as : List ReadAns) : Prop where
  wait : r.readable = false ∨ r.errored = true → r.buf.length ≤ N
  buf : r.buf.length ≤ N + C
  ans : chunksUpTo C as

theorem rdOk_new (c : Codec σ ε μ) {N C : Nat} {as : List ReadAns} (h : chunksUpTo C as) : RdOk N C (Reader.new c) as :=
  ⟨fun _ => by simp [Reader.new], by simp [Reader.new], h⟩

theorem frame_ok {c : Codec σ ε μ} {N C : Nat} (hi : c.Incremental) (hc : c.Needs N) {r : Reader σ}
    (hw : r.readable = false ∨ r.errored = true → r.buf.length ≤ N) (hb : r.buf.length ≤ N + C) {x ms} (hd : Drains c r.st (r.buf ++ x) ms none)
    {o r'} (h : r.frame c = .ok (o, r')) :
    r'.buf.length ≤ N + C ∧ (r'.readable = false ∨ r'.errored = true → r'.buf.length ≤ N) ∧ (o = none → r'.buf.length ≤ N ∧ r'.errored = false) := by
  unfold Reader.frame at h
  split at h
  · rename_i he
    cases h
    exact ⟨hb, fun _ => hw (.inr he), by simp⟩
  · rename_i he
    split at h
    · rename_i hr
      cases hdec : c.decode r.st r.buf with
      | panic => rw [hdec] at h; cases h
      | ok y =>
        obtain ⟨d, s', b'⟩ := y
        rw [hdec] at h
        simp only [R.bind_ok] at h
        obtain ⟨h1, h2⟩ := hc _ _ _ _ _ hdec
        have hb' : b'.length ≤ N + C := Nat.le_trans h1 hb
        cases d with
        | err e =>
          obtain ⟨s'', b'', hx⟩ := hi.err_mono x hdec
          have := hd.det (Drains.err hx)
          cases this.2
        | item m =>
          split at h <;> cases h <;> exact ⟨hb', by simp [hr, he], by simp⟩
        | more =>
          split at h
          · simp only at h
            split at h <;> cases h <;> exact ⟨hb', fun _ => h2 rfl, by simp⟩
          · cases h; exact ⟨hb', fun _ => h2 rfl, fun _ => ⟨h2 rfl, by simpa using he⟩⟩
    · rename_i hr
      cases h
      exact ⟨hb, fun _ => hw (.inl (by simpa using hr)), fun _ => ⟨hw (.inl (by simpa using hr)), by simpa using he⟩⟩

theorem pollNext_ok {c : Codec σ ε μ} {N C : Nat} (hi : c.Incremental) (hs : c.ErrStable) (hc : c.Needs N) (as : List ReadAns) : ∀ (r : Reader σ), RdOk N C r as →
    ∀ {y ms}, Drains c r.st (r.buf ++ (dataOf as ++ y)) ms none → ∀ {o r' as'}, r.pollNext c as = .ok (o, r', as') → RdOk N C r' as' := by
  induction as with
  | nil =>
    intro r hr y ms hd o r' as' h
    unfold Reader.pollNext at h
    cases hfr : r.frame c with
    | panic => rw [hfr] at h; cases h
    | ok x =>
      obtain ⟨o1, r1⟩ := x
      obtain ⟨k1, k2, k3⟩ := frame_ok hi hc hr.wait hr.buf hd hfr
      rw [hfr] at h
      simp only [R.bind_ok] at h
      cases o1 <;> (cases h; exact ⟨k2, k1, hr.ans⟩)
  | cons a as ih =>
    intro r hr y ms hd o r' as' h
    have hans : chunksUpTo C as := fun bs hbs => hr.ans bs (.tail _ hbs)
    unfold Reader.pollNext at h
    cases hfr : r.frame c with
    | panic => rw [hfr] at h; cases h
    | ok x =>
      obtain ⟨o1, r1⟩ := x
      obtain ⟨k1, k2, k3⟩ := frame_ok hi hc hr.wait hr.buf hd hfr
      obtain ⟨o2, r2, hfr2, htr⟩ := frame_track hi hs r hd
      rw [hfr] at hfr2
      cases hfr2
      rw [hfr] at h
      simp only [R.bind_ok] at h
      cases o1 with
      | some o1 => cases h; exact ⟨k2, k1, hr.ans⟩
      | none =>
        have hd1 : Drains c r1.st (r1.buf ++ (dataOf (a :: as) ++ y)) ms none := by
          rcases htr with ⟨m, ms', h1, -⟩ | ⟨-, h2⟩
          · cases h1
          · exact h2
        obtain ⟨hN, hne⟩ := k3 rfl
        cases a with
        | pending => cases h; exact ⟨fun _ => hN, k1, hans⟩
        | err => cases h; exact ⟨fun _ => hN, k1, hans⟩
        | data bs =>
          cases bs with
          | nil =>
            simp only at h
            split at h
            · cases h; exact ⟨fun _ => hN, k1, hans⟩
            · exact ih { r1 with eof := true, readable := true } ⟨fun _ => hN, k1, hans⟩ (by simpa [dataOf] using hd1) h
          | cons b bs =>
            simp only at h
            have hlen := hr.ans (b :: bs) (.head _)
            refine ih { r1 with buf := r1.buf ++ (b :: bs), eof := false, readable := true } ⟨?_, ?_, hans⟩ (y := y) (ms := ms) ?_ h
            · rintro (hx | hx)
              · cases hx
              · simp only at hx; rw [hne] at hx; cases hx
            · simp only [List.length_append]; omega
            · simpa [dataOf] using hd1

/-- A frame header announces at most `2 ^ 32 - 1` bytes. -/
theorem reqrep_needs : ReqRep.codec.Needs (2 ^ 32 - 2) := by
  have hp : ∀ h src d s' b', ReqRep.decodePayload h src = .ok (d, s', b') → b'.length ≤ src.length ∧ (d = .more → b'.length ≤ 2 ^ 32 - 2) := by
    intro h src d s' b' hd
    rw [ReqRep.decodePayload_eq] at hd
    have := h.size.toNat_lt
    split at hd <;> cases hd
    · exact ⟨Nat.le_refl _, fun _ => by omega⟩
    · exact ⟨by simp, by simp⟩
  intro s b d s' b' hd
  cases s with
  | payload h => exact hp h b d s' b' hd
  | header =>
    have hd : ReqRep.decodeHeader b = .ok (d, s', b') := hd
    rw [ReqRep.decodeHeader_eq] at hd
    split at hd
    · cases hd; exact ⟨Nat.le_refl _, by simp⟩
    · rename_i w t
      split at hd
      · cases hd; exact ⟨Nat.le_refl _, by simp⟩
      · split at hd
        · rename_i h9
          cases hd; exact ⟨Nat.le_refl _, fun _ => by simp only [List.length_cons]; omega⟩
        · obtain ⟨h1, h2⟩ := hp _ _ _ _ _ hd
          refine ⟨Nat.le_trans h1 ?_, h2⟩
          simp only [List.length_drop, List.length_cons]; omega

theorem pubsub_needs : PubSub.codec.Needs (2 ^ 32 - 2) := by
  have hp : ∀ h src d s' b', PubSub.decodePayload h src = .ok (d, s', b') → b'.length ≤ src.length ∧ (d = .more → b'.length ≤ 2 ^ 32 - 2) := by
    intro h src d s' b' hd
    rw [PubSub.decodePayload_eq] at hd
    have := h.size.toNat_lt
    split at hd <;> cases hd
    · exact ⟨Nat.le_refl _, fun _ => by omega⟩
    · exact ⟨by simp, by simp⟩
  intro s b d s' b' hd
  cases s with
  | payload h => exact hp h b d s' b' hd
  | header =>
    have hd : PubSub.decodeHeader b = .ok (d, s', b') := hd
    rw [PubSub.decodeHeader_eq] at hd
    split at hd
    · cases hd; exact ⟨Nat.le_refl _, by simp⟩
    · rename_i w t _
      have := (PubSub.tlen t).toNat_lt
      split at hd
      · cases hd; exact ⟨Nat.le_refl _, by simp⟩
      · split at hd
        · rename_i h9
          cases hd; exact ⟨Nat.le_refl _, fun _ => by simp only [List.length_cons]; omega⟩
        · split at hd
          · rename_i h9
            cases hd; exact ⟨Nat.le_refl _, fun _ => by simp only [List.length_cons]; omega⟩
          · obtain ⟨h1, h2⟩ := hp _ _ _ _ _ hd
            refine ⟨Nat.le_trans h1 ?_, h2⟩
            simp only [List.length_drop, List.length_cons]; omega

theorem auth_decode_needs (s b d s' b') (hd : Auth.decode s b = .ok (d, s', b')) :
    b'.length ≤ b.length ∧ (d = .more → b'.length ≤ 2 ^ 32 - 2) := by
  cases s with
  | ack =>
    have hd : Auth.decodeClient b = .ok (d, s', b') := hd
    unfold Auth.decodeClient at hd
    split at hd
    · cases hd; exact ⟨Nat.le_refl _, fun _ => by omega⟩
    · rename_i hlen
      rw [rget_ok (by omega), R.bind_ok] at hd
      split at hd
      · cases hd; exact ⟨Nat.le_refl _, by simp⟩
      · rw [advance_ok (by omega), R.bind_ok, getU8_ok (by simp; omega), R.bind_ok] at hd
        simp only at hd
        split at hd <;> cases hd <;> exact ⟨by simp, by simp⟩
  | authReceive =>
    have hd : Auth.decodeServer b = .ok (d, s', b') := hd
    unfold Auth.decodeServer at hd
    split at hd
    · rename_i he
      cases hd
      exact ⟨Nat.le_refl _, fun _ => by simp at he; simp [he]⟩
    · rename_i he
      have h0 : 0 < b.length := by cases b with | nil => simp at he | cons _ _ => simp
      rw [rget_ok h0, R.bind_ok] at hd
      split at hd
      · cases hd; exact ⟨Nat.le_refl _, by simp⟩
      · split at hd
        · rename_i h4
          cases hd; exact ⟨Nat.le_refl _, fun _ => by omega⟩
        · rename_i h4
          by_cases h5 : 5 ≤ b.length
          · rw [rget_ok (by omega), R.bind_ok, rget_ok (by omega), R.bind_ok, rget_ok (by omega), R.bind_ok, rget_ok (by omega), R.bind_ok] at hd
            simp only at hd
            generalize UInt32.ofNat (beNat [b[1], b[2], b[3], b[4]]) = n at hd
            have := n.toNat_lt
            split at hd
            · cases hd; exact ⟨Nat.le_refl _, fun _ => by omega⟩
            · rw [advance_ok (by omega), R.bind_ok, advance_ok (by simp; omega), R.bind_ok] at hd
              by_cases hs : n.toNat ≤ (List.drop 4 (List.drop 1 b)).length
              · rw [splitTo_ok hs, R.bind_ok] at hd
                cases hd
                exact ⟨by simp, by simp⟩
              · simp only [splitTo, hs, if_false] at hd
                cases hd
          · rw [rget_ok (by omega), R.bind_ok, rget_ok (by omega), R.bind_ok, rget_ok (by omega), R.bind_ok] at hd
            have : rget b 4 = .panic := by rw [rget, List.getElem?_eq_none (by omega)]
            rw [this] at hd
            cases hd

theorem auth_server_needs : Auth.serverCodec.Needs (2 ^ 32 - 2) := fun s b d s' b' h => auth_decode_needs s b d s' b' h
theorem auth_client_needs : Auth.clientCodec.Needs (2 ^ 32 - 2) := fun s b d s' b' h => auth_decode_needs s b d s' b' h

end MsgRs
