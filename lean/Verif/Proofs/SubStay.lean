import Verif.Proofs.SubTopics
/-!
# What changes the state of one publisher
-/
namespace MsgRs.Sub
open MsgRs

variable {A : Type} [DecidableEq A] {L : Lossy} {D : Decompressors}

/-- The commands the user has sent, handled or waiting. -/
def Driver.log (d : Driver A) : List (Command A) := d.processed ++ d.cmdq

theorem onCommand_same (d : Driver A) (c : Command A) :
    (d.onCommand c).processed = d.processed ∧ (d.onCommand c).cmdq = d.cmdq ∧ (d.onCommand c).closed = d.closed ∧
    (d.onCommand c).inbox = d.inbox ∧ (d.onCommand c).received = d.received ∧ (d.onCommand c).addrs = d.addrs ∧
    (d.onCommand c).opts = d.opts ∧ (d.onCommand c).fates = d.fates ∧ (d.onCommand c).started = d.started := by
  cases c with
  | shutdown => exact ⟨rfl, rfl, rfl, rfl, rfl, rfl, rfl, rfl, rfl⟩
  | subscribe t =>
    simp only [Driver.onCommand, Driver.subscribe]
    split
    · exact ⟨rfl, rfl, rfl, rfl, rfl, rfl, rfl, rfl, rfl⟩
    · obtain ⟨-, h2, h3, -, -, h6, h7, h8, h9, h10, h11, h12, -⟩ := tell_same (.subscribe t) d.pubs { d with topics := d.topics ++ [t] }
      exact ⟨h2, h3, h8, h6, h7, h11, h10, h12, h9⟩
  | unsubscribe t =>
    simp only [Driver.onCommand, Driver.unsubscribe]
    split
    · obtain ⟨-, h2, h3, -, -, h6, h7, h8, h9, h10, h11, h12, -⟩ := tell_same (.unsubscribe t) d.pubs { d with topics := d.topics.filter (· ≠ t) }
      exact ⟨h2, h3, h8, h6, h7, h11, h10, h12, h9⟩
    · exact ⟨rfl, rfl, rfl, rfl, rfl, rfl, rfl, rfl, rfl⟩
  | connect a =>
    simp only [Driver.onCommand]
    split
    · exact ⟨rfl, rfl, rfl, rfl, rfl, rfl, rfl, rfl, rfl⟩
    · rw [reset_eq]
      unfold Driver.connect
      split <;> exact ⟨rfl, rfl, rfl, rfl, rfl, rfl, rfl, rfl, rfl⟩
  | disconnect a =>
    simp only [Driver.onCommand]
    split
    · rw [hangUp_eq]; exact ⟨rfl, rfl, rfl, rfl, rfl, rfl, rfl, rfl, rfl⟩
    · exact ⟨rfl, rfl, rfl, rfl, rfl, rfl, rfl, rfl, rfl⟩

theorem onConnection_same (d : Driver A) (order : List Str) (a : A) (via : HsEnv) (input : List ReadAns) :
    (d.onConnection order a via input).processed = d.processed ∧ (d.onConnection order a via input).cmdq = d.cmdq ∧
    (d.onConnection order a via input).keys = d.keys ∧ (d.onConnection order a via input).tasks = d.tasks ∧
    (d.onConnection order a via input).inbox = d.inbox ∧ (d.onConnection order a via input).received = d.received ∧
    (d.onConnection order a via input).closed = d.closed ∧ (d.onConnection order a via input).fates = d.fates ∧
    (d.onConnection order a via input).opts = d.opts ∧ (d.onConnection order a via input).topics = d.topics := by
  unfold Driver.onConnection
  split <;> exact ⟨rfl, rfl, rfl, rfl, rfl, rfl, rfl, rfl, rfl, rfl⟩

/-- Commands are only added to the log, and handled in order. -/
theorem DStep.log {d e : Driver A} (h : DStep L D d e) :
    d.log <+: e.log ∧ d.processed <+: e.processed ∧ (d.closed = true → e.log = d.log ∧ e.closed = true) := by
  have base : d.log <+: d.log ∧ d.processed <+: d.processed ∧ (d.closed = true → d.log = d.log ∧ d.closed = true) :=
    ⟨List.prefix_rfl, List.prefix_rfl, fun h => ⟨rfl, h⟩⟩
  cases h with
  | push c hc hl =>
    exact ⟨⟨[c], by simp [Driver.log]⟩, List.prefix_rfl, fun h => by rw [hc] at h; cases h⟩
  | drop hc => exact ⟨List.prefix_rfl, List.prefix_rfl, fun h => by rw [hc] at h; cases h⟩
  | command c q hq =>
    obtain ⟨h1, h2, h3, -⟩ := onCommand_same { d with cmdq := q, processed := d.processed ++ [c] } c
    simp only at h1 h2 h3
    have hlog : ({ d with cmdq := q, processed := d.processed ++ [c] }.onCommand c).log = d.log := by
      simp only [Driver.log, h1, h2, hq]; simp
    rw [hlog, h1, h3]
    exact ⟨List.prefix_rfl, ⟨[c], rfl⟩, fun h => ⟨rfl, h⟩⟩
  | take a u s t ms payload hl hu ht hd =>
    unfold Driver.deliver
    simp only
    repeat' split
    all_goals exact base
  | lost a u s hl hu ht ho => rw [reset_eq]; exact base
  | retry a b hl =>
    unfold Driver.connect
    split <;> exact base
  | joinOk i a order out via input ht hr =>
    have := onConnection_same { d with tasks := d.tasks.eraseIdx i, keys := d.keys.filter (· ≠ a) } order a via input
    obtain ⟨h1, h2, -, -, -, -, h7, -⟩ := this
    simp only at h1 h2 h7
    simp only [Driver.log, h1, h2, h7]
    exact ⟨List.prefix_rfl, List.prefix_rfl, fun h => ⟨trivial, h⟩⟩
  | _ => exact base

theorem DSteps.log {d e : Driver A} (h : DSteps L D d e) :
    d.log <+: e.log ∧ d.processed <+: e.processed ∧ (d.closed = true → e.log = d.log ∧ e.closed = true) := by
  induction h with
  | refl => exact ⟨List.prefix_rfl, List.prefix_rfl, fun h => ⟨rfl, h⟩⟩
  | step _ hs ih =>
    obtain ⟨h1, h2, h3⟩ := ih
    obtain ⟨g1, g2, g3⟩ := hs.log
    refine ⟨h1.trans g1, h2.trans g2, fun h => ?_⟩
    obtain ⟨k1, k2⟩ := h3 h
    obtain ⟨k3, k4⟩ := g3 k2
    exact ⟨k3.trans k1, k4⟩

/-- The length in bytes of the topic a command is about, if any, is at most `n`. -/
def Command.short (n : Nat) (c : Command A) : Prop :=
  match c with
  | .subscribe t => (utf8 t).length ≤ n
  | .unsubscribe t => (utf8 t).length ≤ n
  | _ => True

/-- A session command with a short topic has a message. -/
theorem Cmd.msg_ok {c : Cmd} {x : Command A} (hx : x.op = some c.op) (hs : x.short 65525) (now : UInt64) :
    ∃ m, c.msg now = .ok m := by
  cases c with
  | subscribe t =>
    cases x with
    | subscribe t' =>
      cases hx
      simp only [Command.short] at hs
      simp only [Cmd.msg, PubSub.Message.newSub, PubSub.Message.new]
      rw [if_pos (by simp [PubSub.subPrefix]; omega)]
      exact ⟨_, rfl⟩
    | _ => cases hx
  | unsubscribe t =>
    cases x with
    | unsubscribe t' =>
      cases hx
      simp only [Command.short] at hs
      simp only [Cmd.msg, PubSub.Message.newUnsub, PubSub.Message.new]
      rw [if_pos (by simp [PubSub.unsubPrefix]; omega)]
      exact ⟨_, rfl⟩
    | _ => cases hx

/-- The publisher at `a` is connected, served by `u`, whose task runs. -/
def Driver.Live (d : Driver A) (a : A) (u : Nat) : Prop :=
  lookup a d.pubs = some (.active u) ∧ ∃ s, d.sessions[u]? = some s ∧ s.over = false

theorem Live.set {d : Driver A} {a : A} {u v : Nat} {s s' : Session} (h : d.Live a u) (hv : d.sessions[v]? = some s)
    (ho : s.over = false → s'.over = false) : Driver.Live { d with sessions := d.sessions.set v s' } a u := by
  obtain ⟨h1, w, h2, h3⟩ := h
  refine ⟨h1, ?_⟩
  by_cases hvu : v = u
  · subst hvu
    rw [hv] at h2; cases h2
    exact ⟨s', by simp [(List.getElem?_eq_some_iff.1 hv).1], ho h3⟩
  · exact ⟨w, by simp [hvu, h2], h3⟩

theorem Live.reset {d : Driver A} (hd : DInv L D d) {a b : A} {u : Nat} (h : d.Live a u) (hb : b ≠ a) :
    (d.resetPublisher b).Live a u := by
  obtain ⟨h1, w, h2, h3⟩ := h
  rw [reset_eq]
  refine ⟨by simp only [lookup_insert_ne (Ne.symm hb)]; exact h1, w, ?_, h3⟩
  simp only [hangUp_get, h2, Option.map_some]
  rw [if_neg]
  intro h4
  have := (hd.act b u h4).1
  rw [(hd.act a u h1).1] at this
  cases this
  exact hb rfl

theorem live_step {d e : Driver A} {a : A} {u : Nat} (hd : DInv L D d) (hti : TInv d) (h : DStep L D d e)
    (hl : d.Live a u) (hdis : ∀ c q, d.cmdq = c :: q → e.processed = d.processed ++ [c] → c ≠ .disconnect a)
    (hshort : ∀ c ∈ d.processed, c.short 65525) : e.Live a u := by
  cases h with
  | time dt => exact hl
  | wake w => exact hl
  | start h => exact hl
  | push c hc hl' => exact hl
  | recv m ms hc hm => exact hl
  | drop hc => exact hl
  | session v s s' hv hs =>
    obtain ⟨h1, w, h2, h3⟩ := hl
    by_cases hvu : v = u
    · subst hvu
      rw [hv] at h2; cases h2
      refine ⟨h1, s', by simp [(List.getElem?_eq_some_iff.1 hv).1], ?_⟩
      cases hs with
      | overlong c cs now ho hc hm =>
        exfalso
        have hi := hd.sess v s hv
        have hq := hi.queued ho
        have hmem : c ∈ s.offered := hi.offered.subset (by rw [hq, hc]; simp)
        have := hti.src v s hv c hmem
        obtain ⟨x, hx1, hx2⟩ := List.mem_filterMap.1 this
        obtain ⟨m, hm'⟩ := Cmd.msg_ok hx2 (hshort x hx1) now
        rw [hm] at hm'; cases hm'
      | hungUp ho hc ha =>
        obtain ⟨-, s1, g2, g3⟩ := hd.act a v h1
        rw [hv] at g2; cases g2
        rw [ha] at g3; cases g3
      | readItem m rd input now ho hp =>
        simp only [Session.onIncoming]
        split <;> exact ho
      | _ => assumption
    · exact ⟨h1, w, by simp [hvu, h2], h3⟩
  | command c q hq =>
    have hc : c ≠ .disconnect a := hdis c q hq (onCommand_same _ c).1
    have hl0 : Driver.Live { d with cmdq := q, processed := d.processed ++ [c] } a u := hl
    have hd0 : DInv L D { d with cmdq := q, processed := d.processed ++ [c] } := { hd with }
    generalize { d with cmdq := q, processed := d.processed ++ [c] } = d0 at *
    cases c with
    | shutdown => exact hl0
    | subscribe t =>
      simp only [Driver.onCommand, Driver.subscribe]
      split
      · exact hl0
      · rename_i hn
        have hd1 : DInv L D { d0 with topics := d0.topics ++ [t] } := { hd0 with
          uniq := by
            rw [List.nodup_append]
            exact ⟨hd0.uniq, by simp, by rintro x hx y hy rfl; simp at hy; subst hy; exact hn hx⟩ }
        obtain ⟨g1, s, g2, g3⟩ := hl0
        obtain ⟨k1, k2⟩ := tell_all (.subscribe t) _ hd1 (a := a) (u := u)
        exact ⟨k1.2 ⟨g1, s, g2, g3⟩, _, k2 g1 s g2 g3, by rw [offer_over]; exact g3⟩
    | unsubscribe t =>
      simp only [Driver.onCommand, Driver.unsubscribe]
      split
      · have hd1 : DInv L D { d0 with topics := d0.topics.filter (· ≠ t) } := { hd0 with
          uniq := hd0.uniq.sublist List.filter_sublist }
        obtain ⟨g1, s, g2, g3⟩ := hl0
        obtain ⟨k1, k2⟩ := tell_all (.unsubscribe t) _ hd1 (a := a) (u := u)
        exact ⟨k1.2 ⟨g1, s, g2, g3⟩, _, k2 g1 s g2 g3, by rw [offer_over]; exact g3⟩
      · exact hl0
    | connect b =>
      simp only [Driver.onCommand]
      split
      · exact hl0
      · rename_i hn
        have hba : b ≠ a := by
          rintro rfl
          rw [hl0.1] at hn
          exact hn rfl
        have hcl : (d0.connect b).Live a u := by
          unfold Driver.connect
          split <;> exact hl0
        refine Live.reset (hd0.connect b ?_) hcl hba
        intro v hv
        rw [hv] at hn; exact hn rfl
    | disconnect b =>
      simp only [Driver.onCommand]
      have hba : b ≠ a := by rintro rfl; exact hc rfl
      split
      · have := Live.reset hd0 hl0 hba
        rw [reset_eq] at this
        rw [hangUp_eq]
        obtain ⟨g1, g2⟩ := this
        simp only [lookup_insert_ne (Ne.symm hba)] at g1
        exact ⟨by simp only [lookup_erase_ne (Ne.symm hba)]; exact g1, g2⟩
      · exact hl0
  | take b v s t ms payload hb hv ht hdec =>
    have := Live.set hl hv (s' := { s with toDriver := ms }) (fun h => h)
    unfold Driver.deliver
    simp only
    repeat' split
    all_goals exact this
  | skip b v s t ms hb hv ht hdec => exact Live.set hl hv (s' := { s with toDriver := ms }) (fun h => h)
  | lost b v s hb hv ht ho =>
    refine Live.reset hd hl ?_
    rintro rfl
    obtain ⟨g1, w, g2, g3⟩ := hl
    rw [hb] at g1; cases g1
    rw [hv] at g2; cases g2
    rw [ho] at g3; cases g3
  | arm b v s hb hv ht ho => exact Live.set hl hv (s' := { s with armed := true }) (fun h => h)
  | backoff b k k' o hb hp =>
    refine ⟨?_, hl.2⟩
    have hba : a ≠ b := by rintro rfl; rw [hl.1] at hb; cases hb
    simp only [lookup_update, hba, if_false]
    exact hl.1
  | retry b k hb => unfold Driver.connect; split <;> exact hl
  | terminate b k hb =>
    have hba : a ≠ b := by rintro rfl; rw [hl.1] at hb; cases hb
    exact ⟨by simp only [lookup_erase_ne hba]; exact hl.1, hl.2⟩
  | joinPanic i b ht => exact hl
  | joinFail i b ht => exact hl
  | joinOk i b order out via input ht hr =>
    have hl0 : Driver.Live { d with tasks := d.tasks.eraseIdx i, keys := d.keys.filter (· ≠ b) } a u := hl
    have hd0 := hd.joined ht
    generalize { d with tasks := d.tasks.eraseIdx i, keys := d.keys.filter (· ≠ b) } = d0 at *
    unfold Driver.onConnection
    split
    · exact hl0
    · rename_i hna
      have hba : a ≠ b := by rintro rfl; exact hna u hl0.1
      obtain ⟨g1, s, g2, g3⟩ := hl0
      refine ⟨by simp only [lookup_insert_ne hba]; exact g1, s, ?_, g3⟩
      simp only
      rw [List.getElem?_append_left (List.getElem?_eq_some_iff.1 g2).1]
      exact g2

/-- Over many steps. -/
theorem live_steps {d e : Driver A} {a : A} {u : Nat} (hd : DInv L D d) (hti : TInv d) (h : DSteps L D d e)
    (hl : d.Live a u) (hdis : ∀ new, e.log = d.processed ++ new → .disconnect a ∉ new)
    (hshort : ∀ c ∈ e.log, c.short 65525) : e.Live a u := by
  induction h with
  | refl => exact hl
  | @step e f h hs ih =>
    obtain ⟨hp1, hp2, -⟩ := h.log
    obtain ⟨hq1, -, -⟩ := hs.log
    have hd' : DInv L D e := hd.steps h
    have ht' : TInv e := (h.induct TInv.step ⟨hti, hd⟩).1
    obtain ⟨p, hp⟩ := hp2
    obtain ⟨r, hr⟩ := hq1
    have hnew : Command.disconnect a ∉ (p ++ e.cmdq ++ r) := by
      refine hdis _ ?_
      rw [← hr]
      simp [Driver.log, ← hp]
    have hle := ih (by
      intro new hn
      have : new = p ++ e.cmdq := by
        have h3 : e.log = d.processed ++ (p ++ e.cmdq) := by simp [Driver.log, ← hp]
        rw [h3] at hn
        exact (List.append_cancel_left hn).symm
      subst this
      intro hm
      exact hnew (List.mem_append_left _ hm)) (by
      intro c hc
      exact hshort c (by rw [← hr]; exact List.mem_append_left _ hc))
    refine live_step hd' ht' hs hle ?_ ?_
    · intro c q hq _ hce
      subst hce
      exact hnew (by rw [hq]; simp)
    · intro c hc
      exact hshort c (by rw [← hr]; simp [Driver.log, hc])

/-- The driver does not know `a`: no entry, no attempt. -/
def Driver.Unknown (d : Driver A) (a : A) : Prop := lookup a d.pubs = none ∧ a ∉ d.keys

/-- The messages from `a` in a list. -/
def from_ (a : A) (l : List (InMsg A)) : List (InMsg A) := l.filter (fun m => decide (m.source = a))

theorem tell_unknown (c : Cmd) (a : A) (l : List (A × PState)) (d : Driver A) (h : lookup a d.pubs = none)
    (hc : a ∉ l.map (·.1)) : lookup a (d.tell c l).pubs = none := by
  induction l generalizing d with
  | nil => exact h
  | cons x l ih =>
    obtain ⟨b, st⟩ := x
    simp only [List.map_cons, List.mem_cons, not_or] at hc
    cases st with
    | inactive k => exact ih d h hc.2
    | active v =>
      unfold Driver.tell
      cases hv : d.sessions[v]? with
      | none => exact ih d h hc.2
      | some w =>
        simp only
        rcases w.offer c with ⟨r, s'⟩
        cases r with
        | closed =>
          refine ih _ ?_ hc.2
          rw [reset_eq]
          simp only [lookup_insert_ne hc.1]
          exact h
        | ok => exact ih _ h hc.2
        | full => exact ih _ h hc.2

theorem not_mem_of_lookup_none {a : A} {l : List (A × β)} (h : lookup a l = none) : a ∉ l.map (·.1) := by
  induction l with
  | nil => simp
  | cons x l ih =>
    simp only [lookup] at h
    split at h
    · cases h
    · rename_i hx
      simp only [List.map_cons, List.mem_cons, not_or]
      exact ⟨Ne.symm hx, ih h⟩

theorem unknown_step {d e : Driver A} {a : A} (hd : DInv L D d) (h : DStep L D d e) (hg : d.Unknown a)
    (hcon : ∀ c q, d.cmdq = c :: q → e.processed = d.processed ++ [c] → c ≠ .connect a) :
    e.Unknown a ∧ from_ a (e.received ++ e.inbox) <+: from_ a (d.received ++ d.inbox) := by
  have nokey : ∀ (i : Nat) (b : A), d.tasks[i]? = some b → b ≠ a := by
    rintro i b hb rfl
    exact hg.2 (hd.tasksKeys _ (List.mem_of_getElem? hb))
  have noent : ∀ b st, lookup b d.pubs = some st → b ≠ a := by
    rintro b st hb rfl
    rw [hg.1] at hb; cases hb
  cases h with
  | time dt => exact ⟨hg, List.prefix_rfl⟩
  | wake w => exact ⟨hg, List.prefix_rfl⟩
  | start h => exact ⟨hg, List.prefix_rfl⟩
  | push c hc hl' => exact ⟨hg, List.prefix_rfl⟩
  | recv m ms hc hm => exact ⟨hg, by simp [hm]⟩
  | drop hc => exact ⟨hg, by simp only [from_, List.append_nil, List.filter_append]; exact List.prefix_append _ _⟩
  | session v s s' hv hs => exact ⟨hg, List.prefix_rfl⟩
  | command c q hq =>
    obtain ⟨h1, -, -, h4, h5, -⟩ := onCommand_same { d with cmdq := q, processed := d.processed ++ [c] } c
    refine ⟨?_, by rw [h4, h5]; exact List.prefix_rfl⟩
    have hc := hcon c q hq h1
    have hg0 : Driver.Unknown { d with cmdq := q, processed := d.processed ++ [c] } a := hg
    generalize { d with cmdq := q, processed := d.processed ++ [c] } = d0 at *
    obtain ⟨g1, g2⟩ := hg0
    cases c with
    | shutdown => exact ⟨g1, g2⟩
    | subscribe t =>
      simp only [Driver.onCommand, Driver.subscribe]
      split
      · exact ⟨g1, g2⟩
      · refine ⟨tell_unknown _ a _ _ g1 (not_mem_of_lookup_none g1), ?_⟩
        rw [(tell_same _ _ _).2.2.2.1]
        exact g2
    | unsubscribe t =>
      simp only [Driver.onCommand, Driver.unsubscribe]
      split
      · refine ⟨tell_unknown _ a _ _ g1 (not_mem_of_lookup_none g1), ?_⟩
        rw [(tell_same _ _ _).2.2.2.1]
        exact g2
      · exact ⟨g1, g2⟩
    | connect b =>
      have hba : a ≠ b := by rintro rfl; exact hc rfl
      simp only [Driver.onCommand]
      split
      · exact ⟨g1, g2⟩
      · rw [reset_eq]
        refine ⟨?_, ?_⟩
        · simp only [lookup_insert_ne hba]
          unfold Driver.connect
          split <;> exact g1
        · unfold Driver.connect
          split
          · exact g2
          · simp only [List.mem_append, List.mem_singleton, not_or]
            exact ⟨g2, hba⟩
    | disconnect b =>
      simp only [Driver.onCommand]
      split
      · rw [hangUp_eq]
        refine ⟨?_, g2⟩
        by_cases hba : a = b
        · subst hba; exact lookup_erase_self _ _
        · simp only [lookup_erase_ne hba]; exact g1
      · exact ⟨g1, g2⟩
  | take b v s t ms payload hb hv ht hdec =>
    have hba := noent b _ hb
    unfold Driver.deliver
    simp only
    split
    · exact ⟨hg, List.prefix_rfl⟩
    · split
      · refine ⟨hg, ?_⟩
        simp only [from_, List.filter_append]
        simp [hba]
      · exact ⟨hg, List.prefix_rfl⟩
  | skip b v s t ms hb hv ht hdec => exact ⟨hg, List.prefix_rfl⟩
  | lost b v s hb hv ht ho =>
    have hba := noent b _ hb
    rw [reset_eq]
    exact ⟨⟨by simp only [lookup_insert_ne (Ne.symm hba)]; exact hg.1, hg.2⟩, List.prefix_rfl⟩
  | arm b v s hb hv ht ho => exact ⟨hg, List.prefix_rfl⟩
  | backoff b k k' o hb hp =>
    have hba := noent b _ hb
    exact ⟨⟨by simp only [lookup_update, Ne.symm hba, if_false]; exact hg.1, hg.2⟩, List.prefix_rfl⟩
  | retry b k hb =>
    have hba := noent b _ hb
    unfold Driver.connect
    split
    · exact ⟨hg, List.prefix_rfl⟩
    · refine ⟨⟨hg.1, ?_⟩, List.prefix_rfl⟩
      simp only [List.mem_append, List.mem_singleton, not_or]
      exact ⟨hg.2, Ne.symm hba⟩
  | terminate b k hb =>
    have hba := noent b _ hb
    exact ⟨⟨by simp only [lookup_erase_ne (Ne.symm hba)]; exact hg.1, hg.2⟩, List.prefix_rfl⟩
  | joinPanic i b ht => exact ⟨hg, List.prefix_rfl⟩
  | joinFail i b ht => exact ⟨⟨hg.1, fun h => hg.2 (List.mem_filter.1 h).1⟩, List.prefix_rfl⟩
  | joinOk i b order out via input ht hr =>
    have hba := nokey i b ht
    obtain ⟨-, -, h3, -, h5, h6, -⟩ := onConnection_same { d with tasks := d.tasks.eraseIdx i, keys := d.keys.filter (· ≠ b) } order b via input
    refine ⟨⟨?_, ?_⟩, by rw [h5, h6]; exact List.prefix_rfl⟩
    · unfold Driver.onConnection
      split
      · exact hg.1
      · simp only [lookup_insert_ne (Ne.symm hba)]; exact hg.1
    · rw [h3]
      exact fun h => hg.2 (List.mem_filter.1 h).1

theorem unknown_steps {d e : Driver A} {a : A} (hd : DInv L D d) (h : DSteps L D d e) (hg : d.Unknown a)
    (hcon : ∀ new, e.log = d.processed ++ new → .connect a ∉ new) :
    e.Unknown a ∧ from_ a (e.received ++ e.inbox) <+: from_ a (d.received ++ d.inbox) := by
  induction h with
  | refl => exact ⟨hg, List.prefix_rfl⟩
  | @step e f h hs ih =>
    obtain ⟨hp1, hp2, -⟩ := h.log
    obtain ⟨hq1, -, -⟩ := hs.log
    have hd' : DInv L D e := hd.steps h
    obtain ⟨p, hp⟩ := hp2
    obtain ⟨r, hr⟩ := hq1
    have hnew : Command.connect a ∉ (p ++ e.cmdq ++ r) := by
      refine hcon _ ?_
      rw [← hr]
      simp [Driver.log, ← hp]
    obtain ⟨hle, hpre⟩ := ih (by
      intro new hn
      have : new = p ++ e.cmdq := by
        have h3 : e.log = d.processed ++ (p ++ e.cmdq) := by simp [Driver.log, ← hp]
        rw [h3] at hn
        exact (List.append_cancel_left hn).symm
      subst this
      intro hm
      exact hnew (List.mem_append_left _ hm))
    obtain ⟨k1, k2⟩ := unknown_step hd' hs hle (by
      intro c q hq _ hce
      subst hce
      exact hnew (by rw [hq]; simp))
    exact ⟨k1, k2.trans hpre⟩

end MsgRs.Sub
