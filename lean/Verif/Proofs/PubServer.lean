import Verif.Model.PubServer
import Verif.Proofs.PubOrigin
import Verif.Spec.PubSys
/-!
# A publisher is its parts
-/
namespace MsgRs.Pub
open MsgRs Spec
variable {A : Type}

/-- The channel and the session tasks of a bound publisher, as `Model/PubSocket` has them. -/
def Server.sys (s : Server A) (b : Bcast PubMsg) : Sys := ⟨b, fun i => (s.ses[i]?).map (·.task)⟩

theorem iter_sessions (d : Driver A) (e : DEnv A) :
    (d.iter e).sessions = d.sessions ∨ ∃ x, (d.iter e).sessions = d.sessions ++ [x] := by
  have h1 : (d.stepJoin e).1.sessions = d.sessions ∨ ∃ x, (d.stepJoin e).1.sessions = d.sessions ++ [x] := by
    unfold Driver.stepJoin
    split
    · split
      · exact .inl rfl
      · simp only
        split
        · exact .inl rfl
        · exact .inr ⟨_, rfl⟩
        · exact .inl rfl
        · exact .inl rfl
    · exact .inl rfl
  have h1f : (d.stepJoin e).2 = false → (d.stepJoin e).1.sessions = d.sessions := by
    unfold Driver.stepJoin
    split
    · split
      · exact fun _ => rfl
      · simp only
        split
        · exact fun _ => rfl
        · intro h; cases h
        · intro h; cases h
        · exact fun _ => rfl
    · exact fun _ => rfl
  have hinc : ∀ (d : Driver A) c, (d.onIncoming c).1.sessions = d.sessions ∨ ∃ x, (d.onIncoming c).1.sessions = d.sessions ++ [x] := by
    intro d c
    unfold Driver.onIncoming
    split
    · exact .inl rfl
    · split
      · exact .inl rfl
      · exact .inr ⟨_, rfl⟩
  have h2 : ∀ d : Driver A, (d.stepConn e).1.sessions = d.sessions ∨ ∃ x, (d.stepConn e).1.sessions = d.sessions ++ [x] := by
    intro d
    unfold Driver.stepConn
    split
    · exact .inl rfl
    · split
      · exact .inl rfl
      · rename_i i ok hr _ c hc
        simp only
        split
        · have := hinc { d with connTasks := d.connTasks.eraseIdx i } c
          rcases hi : ({ d with connTasks := d.connTasks.eraseIdx i } : Driver A).onIncoming c with ⟨d'', b⟩
          rw [hi] at this
          cases b <;> exact this
        · exact .inl rfl
  have h2f : ∀ d : Driver A, (d.stepConn e).2 = false → (d.stepConn e).1 = d := by
    intro d
    unfold Driver.stepConn
    split
    · exact fun _ => rfl
    · split
      · exact fun _ => rfl
      · rename_i i ok hr _ c hc
        simp only
        split
        · rcases hi : ({ d with connTasks := d.connTasks.eraseIdx i } : Driver A).onIncoming c with ⟨d'', b⟩
          cases b <;> (intro h; cases h)
        · intro h; cases h
  have h3 : ∀ d : Driver A, (d.stepAccept e).1.sessions = d.sessions := by
    intro d
    unfold Driver.stepAccept
    split
    · rfl
    · split
      · split <;> rfl
      · rfl
  unfold Driver.iter
  rcases hj : d.stepJoin e with ⟨d1, b1⟩
  rw [hj] at h1 h1f
  cases b1 with
  | true => exact h1
  | false =>
    have e1 := h1f rfl
    simp only at e1 ⊢
    rcases hk : d1.stepConn e with ⟨d2, b2⟩
    have g := h2 d1
    have gf := h2f d1
    rw [hk] at g gf
    cases b2 with
    | true => simp only at g ⊢; rw [← e1]; exact g
    | false =>
      have e2 := gf rfl
      simp only at e2 ⊢
      rw [h3, e2]
      exact .inl e1

theorem filter_set_drop {α : Type} (p : α → Bool) : ∀ (l : List α) (i : Nat) (x y : α), l[i]? = some x → p x = true → p y = false →
    (l.set i y).filter p = (l.filter p).eraseIdx ((l.take i).filter p).length ∧ (l.filter p)[((l.take i).filter p).length]? = some x := by
  intro l
  induction l with
  | nil => intro i x y h; simp at h
  | cons a l ih =>
    intro i x y h hx hy
    cases i with
    | zero =>
      simp only [List.getElem?_cons_zero, Option.some.injEq] at h
      subst h
      simp [hx, hy]
    | succ i =>
      simp only [List.getElem?_cons_succ] at h
      obtain ⟨h1, h2⟩ := ih i x y h hx hy
      cases ha : p a <;> simp [ha, h1, h2]

theorem map_eraseIdx' {α β : Type} (f : α → β) : ∀ (l : List α) (i : Nat), (l.map f).eraseIdx i = (l.eraseIdx i).map f := by
  intro l
  induction l with
  | nil => intro i; rfl
  | cons a l ih => intro i; cases i with
    | zero => rfl
    | succ i => simp [ih i]

theorem filter_set_keep {α β : Type} (p : α → Bool) (f : α → β) : ∀ (l : List α) (i : Nat) (x y : α), l[i]? = some x → p y = p x → f y = f x →
    ((l.set i y).filter p).map f = (l.filter p).map f := by
  intro l
  induction l with
  | nil => intro i x y h; simp at h
  | cons a l ih =>
    intro i x y h hx hy
    cases i with
    | zero =>
      simp only [List.getElem?_cons_zero, Option.some.injEq] at h
      subst h
      simp only [List.set_cons_zero, List.filter_cons, hx]
      split <;> simp [hy]
    | succ i =>
      simp only [List.getElem?_cons_succ] at h
      have h1 := ih i x y h hx hy
      simp only [List.set_cons_succ, List.filter_cons]
      split <;> simp [h1]

/-- What the connection `c` has left for its session: everything, or what follows its accepted token. -/
def Left (authn : Option (Bytes → Bool)) (c : Conn A) (input : List ReadAns) : Prop :=
  match authn with
  | some f => ∃ id wire lost, hsServer f c.hs = .accepted id wire input lost
  | none => input = c.hs.reads

theorem origin_left {max : Option Nat} {authn : Option (Bytes → Bool)} {acts : List (DAct A)} {c : Conn A} {rest : List ReadAns}
    (h : (c, rest) ∈ (({ max, authn } : Driver A).run acts).sessions) : Left authn c rest := by
  have := (run_origin max authn acts c rest h).2
  cases authn <;> exact this

/-- A bound publisher: the channel with its sessions went through some history of `Sys`, the driver through some history of `Driver`, and they agree on who is being served. `Q`: what
is known of the driver's environments. -/
structure Bound (L : Lossy) (Q : DEnv A → Prop) (s : Server A) (d : Driver A) (b : Bcast PubMsg) : Prop where
  sys : ∃ acts, (Sys.new s.sock.bufferSize).run L acts = s.sys b ∧ published acts = s.log
  drv : ∃ dacts, ({ max := s.max, authn := s.authn } : Driver A).run dacts = d ∧ ∀ e, .iter e ∈ dacts → Q e
  same : d.sessions = (running s.ses).map fun x => (x.conn, x.input)
  ses : ∀ (i : Nat) (x : Ses A), s.ses[i]? = some x →
    (∃ e, Q e ∧ e.accept = some x.conn) ∧ Left s.authn x.conn x.input ∧ x.since ≤ s.log.length ∧
    ∃ acts₁ acts₂, ((Sys.new s.sock.bufferSize).run L acts₁).tasks i = none ∧
      (Sys.new s.sock.bufferSize).run L (acts₁ ++ .connect i s.boundary x.input :: acts₂) = s.sys b ∧
      published acts₁ = s.log.take x.since ∧ published acts₂ = s.log.drop x.since

/-- Invariant of a publisher. -/
structure SrvInv (L : Lossy) (Q : DEnv A → Prop) (s : Server A) : Prop where
  unbound : s.sock.chan = none → s.drv = none ∧ s.ses = [] ∧ s.log = []
  fresh : s.sock.transport ≠ none → s.sock.chan = none
  bound : ∀ b, s.sock.chan = some b → ∃ d, s.drv = some d ∧ 0 < s.sock.bufferSize ∧ Bound L Q s d b

theorem sys_run_snoc (L : Lossy) (s : Sys) (acts : List Act) (a : Act) : s.run L (acts ++ [a]) = (s.run L acts).act L a := by
  simp [Sys.run, List.foldl_append]

theorem published_snoc (acts : List Act) (a : Act) : published (acts ++ [a]) = published acts ++ published [a] := by
  simp [published, List.filterMap_append]

/-- One more action of the channel and its sessions, which keeps the sessions' connections. -/
theorem Bound.more {L : Lossy} {Q : DEnv A → Prop} {s s' : Server A} {d d' : Driver A} {b b' : Bcast PubMsg} (h : Bound L Q s d b) (a : Act)
    (hcfg : s'.max = s.max ∧ s'.authn = s.authn ∧ s'.boundary = s.boundary ∧ s'.sock.bufferSize = s.sock.bufferSize)
    (hsys : (s.sys b).act L a = s'.sys b') (hlog : s'.log = s.log ++ published [a])
    (hses : ∀ (i : Nat) (x : Ses A), s'.ses[i]? = some x → ∃ y, s.ses[i]? = some y ∧ x.conn = y.conn ∧ x.input = y.input ∧ x.since = y.since)
    (hdrv : ∃ dacts, ({ max := s.max, authn := s.authn } : Driver A).run dacts = d' ∧ ∀ e, .iter e ∈ dacts → Q e)
    (hsame : d'.sessions = (running s'.ses).map fun x => (x.conn, x.input)) : Bound L Q s' d' b' := by
  obtain ⟨c1, c2, c3, c4⟩ := hcfg
  refine ⟨?_, ?_, hsame, ?_⟩
  · obtain ⟨acts, h1, h2⟩ := h.sys
    exact ⟨acts ++ [a], by rw [c4, sys_run_snoc, h1, hsys], by rw [published_snoc, h2, hlog]⟩
  · rw [c1, c2]; exact hdrv
  · intro i x hx
    obtain ⟨y, hy, e1, e2, e3⟩ := hses i x hx
    obtain ⟨g1, g2, g3, acts₁, acts₂, g4, g5, g6, g7⟩ := h.ses i y hy
    rw [e1, e2, e3, c2, c3, c4, hlog]
    refine ⟨g1, g2, by rw [List.length_append]; omega, acts₁, acts₂ ++ [a], g4, ?_, ?_, ?_⟩
    · have : acts₁ ++ .connect i s.boundary y.input :: (acts₂ ++ [a]) = (acts₁ ++ .connect i s.boundary y.input :: acts₂) ++ [a] := by simp
      rw [this, sys_run_snoc, g5, hsys]
    · rw [List.take_append_of_le_length g3]; exact g6
    · rw [List.drop_append_of_le_length g3, published_snoc, g7]

theorem act_inv {L : Lossy} {Q : DEnv A → Prop} {s : Server A} (h : SrvInv L Q s) (a : SrvAct A) (hQ : ∀ e, a = .driver e → Q e) :
    SrvInv L Q (s.act L a) ∧ (s.act L a).max = s.max ∧ (s.act L a).authn = s.authn ∧ (s.act L a).boundary = s.boundary ∧
    (s.act L a).sock.bufferSize = s.sock.bufferSize ∧ (s.act L a).sock.minCompress = s.sock.minCompress ∧ (s.act L a).sock.comp = s.sock.comp := by
  have noop : SrvInv L Q s ∧ s.max = s.max ∧ s.authn = s.authn ∧ s.boundary = s.boundary ∧
    s.sock.bufferSize = s.sock.bufferSize ∧ s.sock.minCompress = s.sock.minCompress ∧ s.sock.comp = s.sock.comp := ⟨h, by trivial, by trivial, by trivial, by trivial, by trivial, by trivial⟩
  -- a published message
  have pub : ∀ m, let r := s.record (some m) (s.sock.broadcast m)
      SrvInv L Q r ∧ r.max = s.max ∧ r.authn = s.authn ∧ r.boundary = s.boundary ∧
      r.sock.bufferSize = s.sock.bufferSize ∧ r.sock.minCompress = s.sock.minCompress ∧ r.sock.comp = s.sock.comp := by
    intro m
    unfold Socket.broadcast
    cases hc : s.sock.chan with
    | none => exact noop
    | some b =>
      simp only [Server.record]
      refine ⟨⟨fun h => by simp at h, fun ht => ?_, fun b' hb' => ?_⟩, by trivial, by trivial, by trivial, by trivial, by trivial, by trivial⟩
      · have := h.fresh ht; rw [hc] at this; cases this
      · simp only [Option.some.injEq] at hb'
        subst hb'
        obtain ⟨d, h1, h2, h3⟩ := h.bound b hc
        refine ⟨d, h1, h2, h3.more (.publish m) ⟨rfl, rfl, rfl, rfl⟩ rfl rfl (fun i x hx => ⟨x, hx, rfl, rfl, rfl⟩) h3.drv h3.same⟩
  cases a with
  | bind bind addrs =>
    simp only [Server.act]
    split
    · exact noop
    · unfold Socket.tryBind
      split
      · rename_i heq
        exact noop
      · rename_i sock heq
        split at heq
        · cases heq
        · rename_i hbuf
          cases ht : s.sock.transport with
          | none => rw [ht] at heq; cases heq
          | some cur =>
            rw [ht] at heq
            simp only at heq
            have hnone := h.fresh (by rw [ht]; simp)
            obtain ⟨u1, u2, u3⟩ := h.unbound hnone
            cases hb : bindLoop bind cur addrs with
            | none => rw [hb] at heq; cases heq
            | some l =>
              rw [hb] at heq
              cases heq
              refine ⟨⟨fun h => by simp at h, fun h => by simp at h, fun b hb => ?_⟩, by trivial, by trivial, by trivial, by trivial, by trivial, by trivial⟩
              simp only [Option.some.injEq] at hb
              subst hb
              refine ⟨_, rfl, by simp only; omega, ⟨[], ?_, ?_⟩, ⟨[], rfl, fun e he => by cases he⟩, ?_, ?_⟩
              · simp [Sys.run, Sys.new, Server.sys, u2]
              · simp [published, u3]
              · simp [running, u2]
              · intro i x hx; simp [u2] at hx
      · rename_i err sock heq
        split at heq
        · cases heq
        · cases ht : s.sock.transport with
          | none => rw [ht] at heq; cases heq
          | some cur =>
            rw [ht] at heq
            simp only at heq
            have hnone := h.fresh (by rw [ht]; simp)
            cases hb : bindLoop bind cur addrs with
            | none =>
              rw [hb] at heq
              cases heq
              refine ⟨⟨fun _ => h.unbound hnone, fun h => by simp at h, fun b hb => ?_⟩, by trivial, by trivial, by trivial, by trivial, by trivial, by trivial⟩
              simp only [hnone] at hb
              cases hb
            | some l => rw [hb] at heq; cases heq
  | publish topic payload =>
    simp only [Server.act]
    split
    · exact noop
    · unfold Socket.publish
      cases hm : publishPrepare s.sock.minCompress s.sock.comp topic payload with
      | none => exact noop
      | some m => exact pub m
  | tryPublish topic payload =>
    simp only [Server.act]
    split
    · exact noop
    · unfold Socket.tryPublish
      cases hm : tryPublishPrepare s.sock.comp topic payload with
      | none => exact noop
      | some m => exact pub m
  | drop =>
    simp only [Server.act]
    split
    · exact noop
    · refine ⟨⟨fun hn => h.unbound (by simpa using hn), fun ht => ?_, fun b' hb' => ?_⟩, by trivial, by trivial, by trivial, by trivial, by trivial, by trivial⟩
      · simp only at ht ⊢; rw [h.fresh ht]; rfl
      · simp only at hb'
        cases hc : s.sock.chan with
        | none => rw [hc] at hb'; cases hb'
        | some b =>
          rw [hc] at hb'
          cases hb'
          obtain ⟨d, h1, h2, h3⟩ := h.bound b hc
          exact ⟨d, h1, h2, h3.more .drop ⟨rfl, rfl, rfl, rfl⟩ rfl (by simp [published]) (fun i x hx => ⟨x, hx, rfl, rfl, rfl⟩) h3.drv h3.same⟩
  | session i e =>
    simp only [Server.act]
    cases hx : s.ses[i]? with
    | none => exact noop
    | some x =>
      cases hc : s.sock.chan with
      | none => exact noop
      | some b =>
        obtain ⟨d, h1, h2, h3⟩ := h.bound b hc
        simp only
        refine ⟨⟨fun hn => absurd (hc.symm.trans hn) (by simp), h.fresh, fun b' hb' => ?_⟩, by trivial, by trivial, by trivial, by trivial, by trivial, by trivial⟩
        rw [hc] at hb'
        cases hb'
        have hsys : ∀ drv, (s.sys b).act L (.step i e) = ({ s with ses := s.ses.set i { x with task := x.task.step L b e }, drv } : Server A).sys b := by
          intro drv
          simp only [Sys.act, Server.sys, Sys.mk.injEq, true_and]
          funext j
          by_cases hj : j = i
          · subst hj
            have hlt := (List.getElem?_eq_some_iff.1 hx).1
            rw [if_pos rfl, List.getElem?_set_self hlt, hx]
            rfl
          · rw [if_neg hj, List.getElem?_set_ne (fun h => hj h.symm)]
        have hses : ∀ (j : Nat) (y : Ses A), (s.ses.set i { x with task := x.task.step L b e })[j]? = some y →
            ∃ z, s.ses[j]? = some z ∧ y.conn = z.conn ∧ y.input = z.input ∧ y.since = z.since := by
          intro j y hy
          by_cases hj : j = i
          · subst hj
            have hlt := (List.getElem?_eq_some_iff.1 hx).1
            simp [hlt] at hy
            subst hy
            exact ⟨x, hx, rfl, rfl, rfl⟩
          · rw [List.getElem?_set_ne (fun h => hj h.symm)] at hy
            exact ⟨y, hy, rfl, rfl, rfl⟩
        by_cases ho : ((x.task.step L b e).over && !x.task.over) = true
        · rw [if_pos ho, h1]
          refine ⟨_, rfl, h2, h3.more (.step i e) ⟨rfl, rfl, rfl, rfl⟩ (hsys _) (by simp [published]) hses ?_ ?_⟩
          · obtain ⟨dacts, g1, g2⟩ := h3.drv
            refine ⟨dacts ++ [.sessionEnd _], by simp only [Driver.run, List.foldl_append] at g1 ⊢; rw [g1]; rfl, fun e he => g2 e ?_⟩
            simpa using he
          · simp only [Bool.and_eq_true, Bool.not_eq_true'] at ho
            obtain ⟨f1, f2⟩ := filter_set_drop (fun y : Ses A => !y.task.over) s.ses i x { x with task := x.task.step L b e } hx (by simp [ho.2]) (by simp [ho.1])
            have hget : d.sessions[(running (s.ses.take i)).length]? = some (x.conn, x.input) := by
              rw [h3.same, List.getElem?_map]
              unfold running
              rw [f2]
              rfl
            simp only [Driver.act, hget]
            unfold running
            rw [f1, h3.same]
            unfold running
            rw [map_eraseIdx']
        · rw [if_neg ho, h1]
          refine ⟨d, rfl, h2, h3.more (.step i e) ⟨rfl, rfl, rfl, rfl⟩ (hsys _) (by simp [published]) hses h3.drv ?_⟩
          rw [h3.same]
          refine (filter_set_keep (fun y : Ses A => !y.task.over) (fun y => (y.conn, y.input)) s.ses i x { x with task := x.task.step L b e } hx ?_ rfl).symm
          simp only [Bool.and_eq_true, Bool.not_eq_true', not_and, Bool.not_eq_false] at ho
          cases hov : (x.task.step L b e).over with
          | true => rw [ho hov]
          | false =>
            cases hov2 : x.task.over with
            | false => rfl
            | true =>
              rw [Task.step, if_pos hov2, hov2] at hov
              cases hov
  | driver e =>
    simp only [Server.act]
    cases hd : s.drv with
    | none => exact noop
    | some d =>
      cases hc : s.sock.chan with
      | none => exact noop
      | some b =>
        obtain ⟨d0, h1, h2, h3⟩ := h.bound b hc
        rw [hd] at h1
        cases h1
        simp only
        have hdr : ∃ dacts, ({ max := s.max, authn := s.authn } : Driver A).run dacts = d.iter e ∧ ∀ e, .iter e ∈ dacts → Q e := by
          obtain ⟨dacts, g1, g2⟩ := h3.drv
          refine ⟨dacts ++ [.iter e], by simp only [Driver.run, List.foldl_append] at g1 ⊢; rw [g1]; rfl, fun e' he => ?_⟩
          simp only [List.mem_append, List.mem_singleton, DAct.iter.injEq] at he
          rcases he with he | rfl
          · exact g2 _ he
          · exact hQ _ rfl
        refine ⟨⟨fun hn => absurd (hc.symm.trans hn) (by simp), h.fresh, fun b' hb' => ?_⟩, by trivial, by trivial, by trivial, by trivial, by trivial, by trivial⟩
        rw [hc] at hb'
        cases hb'
        refine ⟨_, rfl, h2, ?_⟩
        rcases iter_sessions d e with hs | ⟨⟨c, input⟩, hs⟩
        · rw [hs]
          simp only [List.drop_length, List.map_nil, List.append_nil]
          exact ⟨h3.sys, hdr, by rw [hs]; exact h3.same, h3.ses⟩
        · rw [hs]
          simp only [List.drop_left', List.map_cons, List.map_nil]
          let x : Ses A := { conn := c, input, since := s.log.length, task := { next := b.resubscribe, sess := Session.new s.boundary input } }
          have hfresh : (s.sys b).tasks s.ses.length = none := by simp [Server.sys]
          have hsys : (s.sys b).act L (.connect s.ses.length s.boundary input) = ({ s with drv := some (d.iter e), ses := s.ses ++ [x] } : Server A).sys b := by
            simp only [Sys.act, hfresh]
            simp only [Server.sys, Sys.mk.injEq, true_and]
            funext j
            by_cases hj : j = s.ses.length
            · subst hj
              simp [x]
            · rw [if_neg hj]
              by_cases hlt : j < s.ses.length
              · rw [List.getElem?_append_left hlt]
              · rw [List.getElem?_eq_none (by omega), List.getElem?_eq_none (by simp; omega)]
          obtain ⟨dacts, g1, g2⟩ := hdr
          have hmem : (c, input) ∈ (({ max := s.max, authn := s.authn } : Driver A).run dacts).sessions := by rw [g1, hs]; simp
          have horig := run_origin s.max s.authn dacts c input hmem
          obtain ⟨acts, a1, a2⟩ := h3.sys
          refine ⟨⟨acts ++ [.connect s.ses.length s.boundary input], ?_, ?_⟩, ⟨dacts, g1, g2⟩, ?_, ?_⟩
          · rw [sys_run_snoc, a1]; exact hsys
          · rw [published_snoc, a2]; simp [published]
          · rw [hs, h3.same]; simp [running]
          · intro i y hy
            by_cases hlt : i < s.ses.length
            · simp only at hy
              rw [List.getElem?_append_left hlt] at hy
              obtain ⟨k1, k2, k3, acts₁, acts₂, k4, k5, k6, k7⟩ := h3.ses i y hy
              refine ⟨k1, k2, k3, acts₁, acts₂ ++ [.connect s.ses.length s.boundary input], k4, ?_, k6, ?_⟩
              · have : acts₁ ++ .connect i s.boundary y.input :: (acts₂ ++ [.connect s.ses.length s.boundary input]) =
                    (acts₁ ++ .connect i s.boundary y.input :: acts₂) ++ [.connect s.ses.length s.boundary input] := by simp
                rw [this, sys_run_snoc, k5]
                exact hsys
              · rw [published_snoc, k7]; simp [published]
            · have hi : i = s.ses.length := by
                have := (List.getElem?_eq_some_iff.1 hy).1
                simp at this
                omega
              subst hi
              simp at hy
              subst hy
              obtain ⟨⟨e', he1, he2⟩, -⟩ := horig
              refine ⟨⟨e', g2 e' he1, he2⟩, origin_left hmem, Nat.le_refl _, acts, [], ?_, ?_, ?_, ?_⟩
              · rw [a1]; exact hfresh
              · rw [sys_run_snoc, a1]; exact hsys
              · simp [a2]
              · simp [published]

theorem run_inv' {L : Lossy} {Q : DEnv A → Prop} (acts : List (SrvAct A)) : ∀ {s : Server A}, SrvInv L Q s → (∀ e, .driver e ∈ acts → Q e) →
    SrvInv L Q (s.run L acts) ∧ (s.run L acts).max = s.max ∧ (s.run L acts).authn = s.authn ∧ (s.run L acts).boundary = s.boundary ∧
    (s.run L acts).sock.bufferSize = s.sock.bufferSize ∧ (s.run L acts).sock.minCompress = s.sock.minCompress ∧ (s.run L acts).sock.comp = s.sock.comp := by
  induction acts with
  | nil => intro s h _; exact ⟨h, by trivial, by trivial, by trivial, by trivial, by trivial, by trivial⟩
  | cons a acts ih =>
    intro s h hQ
    obtain ⟨h1, h2, h3, h4, h5, h6, h7⟩ := act_inv h a (fun e he => hQ e (by simp [he]))
    obtain ⟨k1, k2, k3, k4, k5, k6, k7⟩ := ih h1 (fun e he => hQ e (by simp [he]))
    exact ⟨k1, k2.trans h2, k3.trans h3, k4.trans h4, k5.trans h5, k6.trans h6, k7.trans h7⟩

theorem new_srvInv (L : Lossy) (Q : DEnv A → Prop) (max authn boundary minCompress bufferSize comp) :
    SrvInv L Q (Server.new max authn boundary minCompress bufferSize comp : Server A) :=
  ⟨fun _ => ⟨rfl, rfl, rfl⟩, fun _ => rfl, fun b hb => by cases hb⟩

end MsgRs.Pub
