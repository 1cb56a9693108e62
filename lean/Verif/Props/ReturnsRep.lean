import Verif.Props.Rep
import Verif.Proofs.Returns
import Verif.Spec.ReturnsRep
/-!
# Property C74 for the reply socket
-/
namespace MsgRs.Props
open MsgRs

section Rep
open MsgRs.Rep
variable {A : Type} {D : Decompressors}

theorem sum_set {α : Type} (f : α → Nat) (l : List α) (k : Nat) {a b : α} (h : l[k]? = some a) :
    ((l.set k b).map f).sum + f a = (l.map f).sum + f b := by
  induction l generalizing k with
  | nil => simp at h
  | cons x l ih =>
    cases k with
    | zero => simp at h; subst h; simp; omega
    | succ k => have := ih k (by simpa using h); simp only [List.set_cons_succ, List.map_cons, List.sum_cons]; omega

theorem sum_eraseIdx {α : Type} (f : α → Nat) (l : List α) (k : Nat) {a : α} (h : l[k]? = some a) :
    ((l.eraseIdx k).map f).sum + f a = (l.map f).sum := by
  induction l generalizing k with
  | nil => simp at h
  | cons x l ih =>
    cases k with
    | zero => simp at h; subst h; simp; omega
    | succ k => have := ih k (by simpa using h); simp only [List.eraseIdx_cons_succ, List.map_cons, List.sum_cons]; omega

theorem sum_filter_le {α : Type} (f : α → Nat) (q : α → Bool) (l : List α) : ((l.filter q).map f).sum ≤ (l.map f).sum := by
  induction l with
  | nil => simp
  | cons x l ih =>
    rw [List.filter_cons]
    split <;> simp only [List.map_cons, List.sum_cons] <;> omega

/-- What is left to do for a connection. -/
def peerWork (p : Peer A) : Nat := 3 * p.rd.pot ReqRep.meas p.input + 2 * p.pend.length + p.egress.length

/-- What is left to do for a connection that is still being set up. -/
def taskWork (authn : Option (Bytes → Bool)) (c : Conn A) : Nat :=
  match authn with
  | none => 3 * (Reader.new ReqRep.codec).pot ReqRep.meas c.hs.reads + 2
  | some f =>
    match hsServer f c.hs with
    | .accepted _ _ rest _ => 3 * (Reader.new ReqRep.codec).pot ReqRep.meas rest + 2
    | _ => 2

def driverWork (d : Driver A) : Nat :=
  (d.peers.map peerWork).sum + (d.authTasks.map (taskWork d.authn)).sum +
    (d.connTasks.map fun c => taskWork d.authn c + 1).sum

theorem taskWork_pos (authn : Option (Bytes → Bool)) (c : Conn A) : 2 ≤ taskWork authn c := by
  unfold taskWork
  cases authn with
  | none => simp only; omega
  | some f => simp only; split <;> omega

theorem popQueue_len (slots : Nat → Rep.Slot) (pend : List (Nat × UInt32)) (q : List Nat) {r pend' q'}
    (h : popQueue slots pend q = (r, pend', q')) : pend'.length ≤ pend.length ∧ (r.isSome → pend'.length < pend.length) := by
  induction q with
  | nil => cases h; simp
  | cons x q ih =>
    unfold popQueue at h
    have key : ∀ id, pend.lookup x = some id → (pend.filter (·.1 ≠ x)).length < pend.length := by
      intro id hid
      exact List.length_filter_lt_length_iff_exists.mpr ⟨_, lookup_mem hid, by simp⟩
    split at h
    · rename_i b id _ hid
      cases h
      have := key _ hid
      exact ⟨by omega, fun _ => this⟩
    · rename_i id _ hid
      cases h
      have := key _ hid
      exact ⟨by omega, fun _ => this⟩
    · exact ih h

theorem readStep_work {next : Nat} {p p' : Peer A} {o : POut} (h : p.readStep next = .ok (p', o)) :
    peerWork p' ≤ peerWork p ∧ (o ≠ .pending → peerWork p' < peerWork p) := by
  unfold Peer.readStep at h
  cases hp : p.rd.pollNext ReqRep.codec p.input with
  | panic => rw [hp] at h; cases h
  | ok r =>
    obtain ⟨x, rd, input⟩ := r
    obtain ⟨p1, p2⟩ := pollNext_pot ReqRep.sized p.input p.rd hp
    rw [hp] at h
    simp only [R.bind_ok, R.pure_eq] at h
    cases x with
    | item m =>
      cases h
      have := p2 (by simp)
      simp only [peerWork, List.length_append, List.length_cons, List.length_nil]
      omega
    | err x => cases h; have := p2 (by simp); simp only [peerWork]; omega
    | ended => cases h; have := p2 (by simp); simp only [peerWork]; omega
    | pending => cases h; simp only [peerWork]; exact ⟨by omega, fun h => absurd rfl h⟩

theorem completeStep_work {comp slots} {next : Nat} {p p' : Peer A} {o : POut}
    (h : p.completeStep comp slots next = .ok (p', o)) :
    peerWork p' ≤ peerWork p ∧ (o ≠ .pending → peerWork p' < peerWork p) := by
  unfold Peer.completeStep at h
  rcases hq : popQueue slots p.pend p.queue with ⟨r, pend, queue⟩
  obtain ⟨k1, k2⟩ := popQueue_len slots p.pend p.queue hq
  rw [hq] at h
  have rd : ∀ (h : Peer.readStep next { p with pend, queue } = .ok (p', o)),
      peerWork p' ≤ peerWork p ∧ (o ≠ .pending → peerWork p' < peerWork p) := by
    intro h
    obtain ⟨j1, j2⟩ := readStep_work h
    have : peerWork { p with pend, queue } ≤ peerWork p := by simp only [peerWork]; omega
    exact ⟨by omega, fun ho => by have := j2 ho; omega⟩
  rcases r with _ | ⟨x, _ | ⟨id, b⟩⟩
  · exact rd h
  · exact rd h
  · have := k2 (by simp)
    simp only at h
    split at h
    · cases h; simp only [peerWork, List.length_append, List.length_cons, List.length_nil]; omega
    · cases h; simp only [peerWork]; omega

theorem iter_work {comp slots} {next : Nat} {p p' : Peer A} {e : PEnv} {o : POut}
    (h : p.iter comp slots next e = .ok (p', o)) :
    peerWork p' ≤ peerWork p ∧ (o ≠ .pending → peerWork p' < peerWork p) := by
  unfold Peer.iter at h
  have hf : peerWork (p.flushStep e) = peerWork p := by
    unfold Peer.flushStep
    split
    · split <;> rfl
    · rfl
  simp only at h
  generalize p.flushStep e = q at *
  rw [← hf]
  split at h
  · rename_i wr _ _
    have := completeStep_work h
    exact this
  · rename_i wr _ _
    have := completeStep_work h
    exact this
  · rename_i m ms _ hg
    cases h
    simp only [peerWork, hg, List.length_cons]
    omega

theorem wake_work (h : Nat) (p : Peer A) : peerWork (p.wake h) = peerWork p := by
  unfold Peer.wake; split <;> rfl

theorem complete_work (d : Driver A) (h : Nat) (s : Rep.Slot) : driverWork (d.complete h s) = driverWork d := by
  unfold Driver.complete driverWork
  simp only [List.map_map]
  congr 3
  exact List.map_congr_left fun p _ => wake_work h p

theorem onRequest_work (d : Driver A) (p : Peer A) (h : Nat) (m : ReqRep.Message) :
    driverWork (d.onRequest D p h m) = driverWork d := by
  unfold Driver.onRequest
  split
  · exact complete_work d h .dropped
  · simp only
    split
    · rfl
    · exact complete_work { d with bytesRx := _ } h .dropped

theorem insert_work [DecidableEq A] (d : Driver A) (p : Peer A) :
    driverWork (d.insertPeer p) ≤ driverWork d + peerWork p := by
  unfold Driver.insertPeer driverWork
  have := sum_filter_le peerWork (fun q => decide (q.addr ≠ p.addr)) d.peers
  simp only [List.map_append, List.sum_append, List.map_cons, List.map_nil, List.sum_cons, List.sum_nil]
  omega

/-- The driver's own steps never add work, and those that get something done use some up. -/
theorem act_work [DecidableEq A] {d d' : Driver A} {a : Act A} (ho : Spec.Rep.own a = true) (h : d.act D a = .ok d') :
    driverWork d' + (if Spec.Rep.productive d a then 1 else 0) ≤ driverWork d := by
  cases a with
  | accept c => simp [Spec.Rep.own] at ho
  | recv => simp [Spec.Rep.own] at ho
  | respond i b => simp [Spec.Rep.own] at ho
  | drop i => simp [Spec.Rep.own] at ho
  | peer k e =>
    simp only [Driver.act, Driver.stepPeer] at h
    cases hk : d.peers[k]? with
    | none => rw [hk] at h; cases h; simp [Spec.Rep.productive, hk]
    | some p =>
      rw [hk] at h
      simp only at h
      cases hi : p.iter d.comp d.slots d.next e with
      | panic => rw [hi] at h; cases h
      | ok r =>
        obtain ⟨p', o⟩ := r
        rw [hi] at h
        simp only [R.bind_ok, R.pure_eq] at h
        have hpr : (if Spec.Rep.productive d (.peer k e) = true then 1 else 0) ≤ 1 := by split <;> omega
        have hpp : o = .pending → Spec.Rep.productive d (.peer k e) = false := by
          rintro rfl; simp [Spec.Rep.productive, hk, hi]
        obtain ⟨w1, w2⟩ := iter_work hi
        have hs := sum_set peerWork d.peers k (b := p') hk
        have he := sum_eraseIdx peerWork d.peers k hk
        cases o with
        | request x m =>
          simp only [R.ok.injEq] at h
          subst h
          rw [onRequest_work]
          have := w2 (by simp)
          simp only [driverWork]
          omega
        | closed =>
          cases h
          have := w2 (by simp)
          simp only [driverWork]
          omega
        | sent m =>
          cases h
          have := w2 (by simp)
          simp only [driverWork]
          omega
        | queued =>
          cases h
          have := w2 (by simp)
          simp only [driverWork]
          omega
        | error =>
          cases h
          have := w2 (by simp)
          simp only [driverWork]
          omega
        | pending =>
          cases h
          rw [hpp rfl]
          simp only [driverWork, Bool.false_eq_true, if_false]
          omega
  | join i =>
    simp only [Driver.act, R.ok.injEq] at h
    subst h
    cases ha : d.authn with
    | none => simp [Spec.Rep.productive, Driver.stepJoin, ha]
    | some f =>
      cases hc : d.authTasks[i]? with
      | none => simp [Spec.Rep.productive, Driver.stepJoin, ha, hc]
      | some c =>
        have he := sum_eraseIdx (taskWork d.authn) d.authTasks i hc
        have ht := taskWork_pos d.authn c
        have hle : (if Spec.Rep.productive d (.join i) = true then 1 else 0) ≤ 1 := by
          split <;> omega
        have e2 : driverWork { d with authTasks := d.authTasks.eraseIdx i } + taskWork d.authn c = driverWork d := by
          simp only [driverWork]; omega
        have e3 : driverWork { d with authTasks := d.authTasks.eraseIdx i, active := decr d.active } =
          driverWork { d with authTasks := d.authTasks.eraseIdx i } := rfl
        have goal : d.stepJoin i = d ∨ driverWork (d.stepJoin i) + 1 ≤ driverWork d := by
          generalize hq : d.stepJoin i = q
          unfold Driver.stepJoin at hq
          rw [ha, hc] at hq
          simp only at hq
          cases hh : hsServer f c.hs with
          | waiting => rw [hh] at hq; exact .inl hq.symm
          | accepted x1 x2 rest x3 =>
            cases hca : c.addr with
            | none => rw [hh, hca] at hq; exact .inl hq.symm
            | some a =>
              rw [hh, hca] at hq
              simp only [← ha] at hq
              have hi := insert_work { d with authTasks := d.authTasks.eraseIdx i } (Peer.new c.uid a rest)
              have e1 : peerWork (Peer.new c.uid a rest) + 2 = taskWork d.authn c := by
                simp only [peerWork, Peer.new, taskWork, ha, hh]; simp
              rw [hq] at hi
              exact .inr (by omega)
          | failed x =>
            rw [hh] at hq
            simp only [← ha] at hq
            rw [hq] at e3
            exact .inr (by omega)
          | panicked =>
            rw [hh] at hq
            simp only [← ha] at hq
            rw [hq] at e2
            exact .inr (by omega)
        rcases goal with h | h
        · have : Spec.Rep.productive d (.join i) = false := by simp [Spec.Rep.productive, h]
          rw [h, this]; simp
        · omega
  | ready i ok =>
    simp only [Driver.act, R.ok.injEq] at h
    subst h
    cases hc : d.connTasks[i]? with
    | none => simp [Spec.Rep.productive, Driver.stepConn, hc]
    | some c =>
      have he := sum_eraseIdx (fun c => taskWork d.authn c + 1) d.connTasks i hc
      have ht := taskWork_pos d.authn c
      have hle : (if Spec.Rep.productive d (.ready i ok) = true then 1 else 0) ≤ 1 := by
        split <;> omega
      have e2 : driverWork { d with connTasks := d.connTasks.eraseIdx i } + (taskWork d.authn c + 1) = driverWork d := by
        simp only [driverWork]; omega
      have e3 : driverWork { d with connTasks := d.connTasks.eraseIdx i, active := decr d.active } =
          driverWork { d with connTasks := d.connTasks.eraseIdx i } := rfl
      have goal : driverWork (d.stepConn i ok) + 1 ≤ driverWork d := by
        unfold Driver.stepConn
        simp only [hc]
        cases ok with
        | false => simp only [Bool.false_eq_true, if_false]; omega
        | true =>
          simp only [if_true]
          cases hca : c.addr with
          | none => simp only; omega
          | some a =>
            simp only
            cases ha : d.authn with
            | some f =>
              simp only
              rw [← e2]
              simp only [driverWork, ha, List.map_append, List.sum_append, List.map_cons, List.map_nil, List.sum_cons, List.sum_nil]
              omega
            | none =>
              have hi := insert_work { d with connTasks := d.connTasks.eraseIdx i } (Peer.new c.uid a c.hs.reads)
              have e1 : peerWork (Peer.new c.uid a c.hs.reads) + 2 = taskWork d.authn c := by
                rw [ha]; simp only [peerWork, Peer.new, taskWork]; simp
              simp only [ha] at hi e1 e2 ⊢
              omega
      omega

theorem work_le [DecidableEq A] (as : List (Act A)) (d : Driver A) (ho : ∀ a ∈ as, Spec.Rep.own a = true)
    (hn : d.run D as ≠ .panic) : Spec.Rep.work D d as ≤ driverWork d := by
  induction as generalizing d with
  | nil => simp [Spec.Rep.work]
  | cons a as ih =>
    unfold Driver.run at hn
    unfold Spec.Rep.work
    cases hd : d.act D a with
    | panic => rw [hd] at hn; exact absurd rfl hn
    | ok d1 =>
      rw [hd] at hn
      have h1 := ih d1 (fun b hb => ho b (by simp [hb])) hn
      have h2 := act_work (ho a (by simp)) hd
      simp only
      omega

/-- C74 for the reply socket: in every reachable state there is a bound on the number of steps that get something
done and that the driver can take on its own, whatever its connections do and in whatever order it serves them; and
none of them panics. So while the listener has no further connection for it, a poll of the driver returns. -/
theorem C74_reply_driver_returns [DecidableEq A] (D : Decompressors) (max authn comp) (acts : List (Act A)) (d : Driver A)
    (h : (Driver.new max authn comp).run D acts = .ok d) :
    ∃ bound, ∀ as : List (Act A), (∀ a ∈ as, Spec.Rep.own a = true) →
      d.run D as ≠ .panic ∧ Spec.Rep.work D d as ≤ bound := by
  refine ⟨driverWork d, fun as ho => ?_⟩
  have hn : d.run D as ≠ .panic := by
    have := C44_no_panic D max authn comp (acts ++ as)
    rw [run_append, h] at this
    obtain ⟨d1, h1⟩ := this
    simp only [R.bind_ok] at h1
    rw [h1]
    simp
  exact ⟨hn, work_le as d ho hn⟩

/-- A case: a client connects and sends a request. Making it a peer and reading the request get something done; polling
it twice more does not. -/
example (D : Decompressors) : ∃ d : Driver Nat,
    (Driver.new none none none).run D [.accept ⟨0, some 5, ⟨[.data (ReqRep.encode ⟨⟨0, 7, 2⟩, [8, 9]⟩)], [], [], []⟩⟩] = .ok d ∧
    Spec.Rep.work D d [.ready 0 true, .peer 0 ⟨[], []⟩, .peer 0 ⟨[], []⟩, .peer 0 ⟨[], []⟩] = 2 :=
  ⟨_, rfl, rfl⟩

end Rep
end MsgRs.Props
