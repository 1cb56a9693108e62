import Verif.Model.BindFut
import Verif.Props.PubServerCalls
import Verif.Props.RepSocket
/-!
# C113: giving up a call of `bind` or `connect`
-/
namespace MsgRs.Spec
open MsgRs
variable {A : Type}

/-- During the poll `e`, no `bind` of the transport was suspended: it answered for every address it was asked for. (What `bind` of the TCP, QUIC and IPC transports does: there is
nothing in them to wait for, tcp/mod.rs:49-55, quic/mod.rs:99-105, ipc/mod.rs:108-123.) -/
def Prompt (e : BindEnv A) : Prop :=
  (∀ l, e.lookup = .addrs l → l.length ≤ e.binds.length) ∧ ∀ b ∈ e.binds, b ≠ .pending

/-- The answers a poll of the loop over the addresses uses at most: up to the first that is `pending`. -/
def BindEnv.given (e : BindEnv A) : List (BindAns A) := e.binds.takeWhile fun b => match b with | .pending => false | _ => true

/-- `bind a = some l` as an answer of the transport: bound, with local address `l`; `none`: failed. -/
def asAnswer : Option A → BindAns A
  | some l => .bound l
  | none => .failed

/-- In the polls `es` of the loop over the addresses `l`, the transport answers as `bind` says: the `i`-th answer, counted over all polls, is that for the `i`-th address. -/
def Answers (bind : A → Option A) (l : List A) (es : List (BindEnv A)) : Prop :=
  ∀ (i : Nat) (a : A) (o : BindAns A), l[i]? = some a → (es.flatMap BindEnv.given)[i]? = some o → o = asAnswer (bind a)

/-- In the polls `es`, the lookup gives the addresses `l` with the poll that is the first of `used`. -/
def LooksUp (es : List (BindEnv A)) (l : List A) (used : List (BindEnv A)) : Prop :=
  ∃ waits e rest, es = waits ++ e :: rest ∧ used = e :: rest ∧ (∀ w ∈ waits, w.lookup = .pending) ∧ e.lookup = .addrs l

end MsgRs.Spec

namespace MsgRs.Props
open MsgRs Spec
variable {A : Type}

/-! ## The loop -/

theorem bindPoll_prompt (cur : Option A) (l : List A) (bs : List (BindAns A)) (hl : l.length ≤ bs.length) (hb : ∀ b ∈ bs, b ≠ .pending) :
    ∀ rest, bindPoll cur l bs ≠ .suspended rest := by
  induction l generalizing bs with
  | nil => intro rest h; simp [bindPoll] at h
  | cons a as ih =>
    cases bs with
    | nil => simp at hl
    | cons b bs =>
      cases b with
      | pending => exact absurd rfl (hb _ (List.mem_cons_self ..))
      | bound x => intro rest h; simp [bindPoll] at h
      | failed =>
        simp only [bindPoll]
        exact ih bs (by simpa using hl) fun b h => hb b (List.mem_cons_of_mem _ h)

theorem given_cons_ok (lk : LookupAns A) (b : BindAns A) (bs : List (BindAns A)) (hb : b ≠ .pending) :
    BindEnv.given ⟨lk, b :: bs⟩ = b :: BindEnv.given ⟨lk, bs⟩ := by
  cases b with
  | pending => exact absurd rfl hb
  | failed => simp [BindEnv.given]
  | bound x => simp [BindEnv.given]

theorem answers_tail {bind : A → Option A} {a : A} {as : List A} {lk : LookupAns A} {b : BindAns A} {bs : List (BindAns A)} {es : List (BindEnv A)} (hb : b ≠ .pending)
    (h : Answers bind (a :: as) (⟨lk, b :: bs⟩ :: es)) : b = asAnswer (bind a) ∧ Answers bind as (⟨lk, bs⟩ :: es) := by
  constructor
  · exact h 0 a b rfl (by simp [given_cons_ok lk b bs hb])
  · intro i a' o hi ho
    refine h (i + 1) a' o (by simpa using hi) ?_
    simpa [given_cons_ok lk b bs hb] using ho

/-- What one poll does with answers as `bind` says. -/
theorem bindPoll_answers (bind : A → Option A) (cur : Option A) (lk : LookupAns A) (es : List (BindEnv A)) (l : List A) (bs : List (BindAns A))
    (h : Answers bind l (⟨lk, bs⟩ :: es)) :
    (∀ la, bindPoll cur l bs = .over la → Pub.bindLoop bind cur l = la) ∧
    (∀ rest, bindPoll cur l bs = .suspended rest → Answers bind rest es ∧ Pub.bindLoop bind cur l = Pub.bindLoop bind cur rest) := by
  induction l generalizing bs with
  | nil => simp [bindPoll, Pub.bindLoop]
  | cons a as ih =>
    cases bs with
    | nil =>
      refine ⟨fun la h' => by simp [bindPoll] at h', fun rest h' => ?_⟩
      simp only [bindPoll, LoopEnd.suspended.injEq] at h'
      subst h'
      exact ⟨fun i a' o hi ho => h i a' o hi (by simpa [BindEnv.given] using ho), rfl⟩
    | cons b bs =>
      cases b with
      | pending =>
        refine ⟨fun la h' => by simp [bindPoll] at h', fun rest h' => ?_⟩
        simp only [bindPoll, LoopEnd.suspended.injEq] at h'
        subst h'
        exact ⟨fun i a' o hi ho => h i a' o hi (by simpa [BindEnv.given] using ho), rfl⟩
      | bound x =>
        obtain ⟨h1, h2⟩ := answers_tail (by simp) h
        cases hba : bind a with
        | none => rw [hba] at h1; cases h1
        | some y =>
          rw [hba] at h1
          cases h1
          simp [bindPoll, Pub.bindLoop, hba]
      | failed =>
        obtain ⟨h1, h2⟩ := answers_tail (by simp) h
        cases hba : bind a with
        | some y => rw [hba] at h1; cases h1
        | none =>
          simp only [bindPoll, Pub.bindLoop, hba]
          exact ih bs h2

/-! ## Publisher -/

/-- Where a call of `bind` on a publisher can be after some polls. -/
theorem pub_polls (s : Pub.Socket A) (es : List (BindEnv A)) (p : Progress A (Except Pub.PubErr Unit)) (s' : Pub.Socket A)
    (h : s.pollsBind .looking es = .ok (p, s')) :
    (p = .suspended .looking ∧ s' = s) ∨
    (p = .returned (.error .io) ∧ s' = s ∧ ∃ e ∈ es, e.lookup = .failed) ∨
    (∃ l used cur, LooksUp es l used ∧ s.transport = some cur ∧
      ((∃ rest, p = .suspended (.binding cur rest) ∧ s' = { s with transport := none } ∧ ¬ ∀ e ∈ es, Prompt e) ∨
       (∃ r, p = .returned r ∧ ∀ bind, Answers bind l used → s.tryBind bind l = .ok (r, s')))) := by
  have key : ∀ (es used : List (BindEnv A)) (cur : Option A) (l rest : List A)
      (hl : ∀ bind, Answers bind l used → Answers bind rest es ∧ Pub.bindLoop bind cur l = Pub.bindLoop bind cur rest) (hs : s.transport = some cur) (hb : ¬ (s.bufferSize = 0 ∨ 2 ^ 63 ≤ s.bufferSize)),
      ({ s with transport := none } : Pub.Socket A).pollsBind (.binding cur rest) es = .ok (p, s') →
      (∃ rest, p = .suspended (.binding cur rest) ∧ s' = { s with transport := none }) ∨
      (∃ r, p = .returned r ∧ ∀ bind, Answers bind l used → s.tryBind bind l = .ok (r, s')) := by
    intro es
    induction es with
    | nil => intro used cur l rest hl hs hb h; cases h; exact .inl ⟨rest, rfl, rfl⟩
    | cons e es ih =>
      intro used cur l rest hl hs hb h
      simp only [Pub.Socket.pollsBind, Pub.Socket.pollBind, Pub.Socket.resumeBind, bind, R.bind] at h
      cases hp : bindPoll cur rest e.binds with
      | suspended rest' =>
        simp only [hp] at h
        refine ih used cur l rest' (fun bind ha => ?_) hs hb h
        obtain ⟨h1, h2⟩ := hl bind ha
        obtain ⟨h3, h4⟩ := (bindPoll_answers bind cur e.lookup es rest e.binds h1).2 rest' hp
        exact ⟨h3, h2.trans h4⟩
      | over la =>
        have hl' : ∀ bind, Answers bind l used → Pub.bindLoop bind cur l = la := fun bind ha => by
          obtain ⟨h1, h2⟩ := hl bind ha
          exact h2.trans ((bindPoll_answers bind cur e.lookup es rest e.binds h1).1 la hp)
        cases la with
        | none =>
          simp only [hp] at h
          cases h
          refine .inr ⟨.error .noValidEndpoints, rfl, fun bind ha => ?_⟩
          have h1 := hl' bind ha
          unfold Pub.Socket.tryBind
          rw [if_neg hb, hs]
          simp only [h1]
        | some x =>
          simp only [hp] at h
          cases h
          refine .inr ⟨.ok (), rfl, fun bind ha => ?_⟩
          have h1 := hl' bind ha
          unfold Pub.Socket.tryBind
          rw [if_neg hb, hs]
          simp only [h1]
  induction es with
  | nil => cases h; exact .inl ⟨rfl, rfl⟩
  | cons e es ih =>
    simp only [Pub.Socket.pollsBind, Pub.Socket.pollBind, bind, R.bind] at h
    cases hl : e.lookup with
    | pending =>
      simp only [hl] at h
      rcases ih h with h | ⟨h1, h2, e', he', h3⟩ | ⟨l, used, cur, ⟨ws, e', rest', k1, k2, k3, k4⟩, h2, h3⟩
      · exact .inl h
      · exact .inr (.inl ⟨h1, h2, e', List.mem_cons_of_mem _ he', h3⟩)
      · refine .inr (.inr ⟨l, used, cur, ⟨e :: ws, e', rest', by simp [k1], k2, fun w hw => ?_, k4⟩, h2, ?_⟩)
        · rcases List.mem_cons.1 hw with rfl | hw
          · exact hl
          · exact k3 w hw
        · rcases h3 with ⟨rest, h3, h4, h5⟩ | h3
          · exact .inl ⟨rest, h3, h4, fun hp => h5 fun e he => hp e (List.mem_cons_of_mem _ he)⟩
          · exact .inr h3
    | failed =>
      simp only [hl] at h
      cases h
      exact .inr (.inl ⟨rfl, rfl, e, List.mem_cons_self .., hl⟩)
    | addrs l =>
      simp only [hl] at h
      by_cases hb : s.bufferSize = 0 ∨ 2 ^ 63 ≤ s.bufferSize
      · rw [if_pos hb] at h; cases h
      · rw [if_neg hb] at h
        cases hs : s.transport with
        | none => simp only [hs] at h; cases h
        | some cur =>
          simp only [hs] at h
          refine .inr (.inr ⟨l, e :: es, cur, ⟨[], e, es, rfl, rfl, (fun w hw => by simp at hw), hl⟩, rfl, ?_⟩)
          have h' : ({ s with transport := none } : Pub.Socket A).pollsBind (.binding cur l) (e :: es) = .ok (p, s') := by
            simp only [Pub.Socket.pollsBind, Pub.Socket.pollBind, bind, R.bind]
            exact h
          rcases key (e :: es) (e :: es) cur l l (fun bind ha => ⟨ha, rfl⟩) hs hb h' with ⟨rest, h1, h2⟩ | h1
          · refine .inl ⟨rest, h1, h2, fun hp => ?_⟩
            obtain ⟨hp1, hp2⟩ := hp e (List.mem_cons_self ..)
            have hns := bindPoll_prompt cur l e.binds (hp1 l hl) hp2
            simp only [Pub.Socket.resumeBind] at h
            cases hq : bindPoll cur l e.binds with
            | suspended rest' => exact hns rest' hq
            | over la =>
              cases la with
              | none => simp only [hq] at h; cases h; cases h1
              | some x =>
                simp only [hq] at h
                cases h; cases h1
          · exact .inr h1

/-- C113, a call of `bind` on a publisher that returns, however often it was suspended on the way: either looking up the address failed, and the socket is as it was; or it did what `bind` (`Socket.tryBind`, C25, C57, C82) does with the addresses looked up, the transport
answering as it did: if its answers, in order, were those `bind` says for the addresses, then the outcome is that of `tryBind bind`. -/
theorem C113_publisher_returns (s s' : Pub.Socket A) (es : List (BindEnv A)) (r : (Except Pub.PubErr Unit))
    (h : s.pollsBind .looking es = .ok (.returned r, s')) :
    (r = (.error .io) ∧ s' = s ∧ ∃ e ∈ es, e.lookup = .failed) ∨
    (∃ l used, LooksUp es l used ∧ ∀ bind, Answers bind l used → s.tryBind bind l = .ok (r, s')) := by
  rcases pub_polls s es _ s' h with ⟨h, -⟩ | ⟨h1, h2⟩ | ⟨l, used, cur, h1, h2, ⟨rest, h3, -⟩ | ⟨r', h3, h4⟩⟩
  · cases h
  · cases h1; exact .inl ⟨rfl, h2⟩
  · cases h3
  · cases h3; exact .inr ⟨l, used, h1, h4⟩

/-- C113 (partial), publisher: a call of `bind` that its owner gives up before it has returned has had no effect on the socket. Missing: a transport whose `bind` waits for something; then the
socket can be lost (`C113_publisher_refuted`). -/
theorem C113_publisher_partial (s s' : Pub.Socket A) (es : List (BindEnv A)) (f : BindFut A) (hp : ∀ e ∈ es, Prompt e)
    (h : s.pollsBind .looking es = .ok (.suspended f, s')) : s' = s := by
  rcases pub_polls s es _ s' h with ⟨-, h⟩ | ⟨h1, h2⟩ | ⟨l, used, cur, h1, h2, ⟨rest, h3, h4, h5⟩ | ⟨r', h3, h4⟩⟩
  · exact h
  · cases h1
  · exact absurd hp h5
  · cases h3

theorem pub_spent (L : Lossy) (s : Pub.Server A) (a : Pub.SrvAct A) (h1 : s.sock.transport = none) (h2 : s.sock.chan = none) :
    (s.act L a).sock.transport = none ∧ (s.act L a).sock.chan = none ∧ (s.act L a).sock.localAddr = s.sock.localAddr ∧ (s.act L a).ses = s.ses := by
  have hpub : ∀ m, s.sock.broadcast m = (.error .socketClosed, s.sock) := fun m => by simp [Pub.Socket.broadcast, h2]
  have hrec : ∀ m e, s.record m (.error e, s.sock) = s := fun m e => rfl
  cases a with
  | bind b as =>
    simp only [Pub.Server.act]
    have : s.sock.tryBind b as = .panic := by simp [Pub.Socket.tryBind, h1]
    rw [this]
    split <;> exact ⟨h1, h2, rfl, rfl⟩
  | publish t p =>
    simp only [Pub.Server.act, Pub.Socket.publish]
    cases publishPrepare s.sock.minCompress s.sock.comp t p with
    | none => simp only [hrec]; split <;> exact ⟨h1, h2, rfl, rfl⟩
    | some m => simp only [hpub, hrec]; split <;> exact ⟨h1, h2, rfl, rfl⟩
  | tryPublish t p =>
    simp only [Pub.Server.act, Pub.Socket.tryPublish]
    cases tryPublishPrepare s.sock.comp t p with
    | none => simp only [hrec]; split <;> exact ⟨h1, h2, rfl, rfl⟩
    | some m => simp only [hpub, hrec]; split <;> exact ⟨h1, h2, rfl, rfl⟩
  | driver e =>
    have : s.act L (.driver e) = s := by
      simp only [Pub.Server.act, h2]
      split
      · rename_i h; cases h
      · rfl
    rw [this]; exact ⟨h1, h2, rfl, rfl⟩
  | session i e =>
    have : s.act L (.session i e) = s := by
      simp only [Pub.Server.act, h2]
      split
      · rename_i h; cases h
      · rfl
    rw [this]; exact ⟨h1, h2, rfl, rfl⟩
  | drop =>
    simp only [Pub.Server.act]
    split
    · exact ⟨h1, h2, rfl, rfl⟩
    · exact ⟨h1, by simp [h2], rfl, rfl⟩

theorem pub_spent_run (L : Lossy) (acts : List (Pub.SrvAct A)) (s : Pub.Server A) (h1 : s.sock.transport = none) (h2 : s.sock.chan = none) :
    (s.run L acts).sock.transport = none ∧ (s.run L acts).sock.chan = none ∧ (s.run L acts).sock.localAddr = s.sock.localAddr ∧ (s.run L acts).ses = s.ses := by
  induction acts generalizing s with
  | nil => exact ⟨h1, h2, rfl, rfl⟩
  | cons a acts ih =>
    obtain ⟨k1, k2, k3, k4⟩ := pub_spent L s a h1 h2
    obtain ⟨j1, j2, j3, j4⟩ := ih (s.act L a) k1 k2
    exact ⟨j1, j2, j3.trans k3, j4.trans k4⟩

/-- C113 does not hold of the code, publisher: if the transport's `bind` has to wait for something for the first address and the call is given up there (for instance because of a timeout around it), the socket is lost: whatever happens
afterwards, it has no address and serves nobody, every `publish` fails, and every further `bind` panics. -/
theorem C113_publisher_refuted (L : Lossy) (max : Option Nat) (authn : Option (Bytes → Bool)) (boundary minCompress bufferSize : Nat) (comp : Option Compressor)
    (hb : 0 < bufferSize) (hbig : bufferSize < 2 ^ 63) (e : BindEnv A) (a : A) (as : List A) (hl : e.lookup = .addrs (a :: as)) (hw : e.binds = [.pending]) :
    ∃ f k, (Pub.Socket.new minCompress bufferSize comp : Pub.Socket A).pollsBind .looking [e] = .ok (.suspended f, k) ∧
      ∀ acts : List (Pub.SrvAct A),
        let s := ({ Pub.Server.new max authn boundary minCompress bufferSize comp with sock := k } : Pub.Server A).run L acts
        s.sock.localAddr = none ∧ s.ses = [] ∧
        (∀ bind addrs, s.sock.tryBind bind addrs = .panic) ∧
        (∀ t p, (s.sock.publish t p).1 ≠ .ok () ∧ (s.sock.tryPublish t p).1 ≠ .ok ()) := by
  refine ⟨.binding none (a :: as), { Pub.Socket.new minCompress bufferSize comp with transport := none }, ?_, fun acts => ?_⟩
  · simp only [Pub.Socket.pollsBind, Pub.Socket.pollBind, hl, hw, bind, R.bind, Pub.Socket.new]
    rw [if_neg (by omega)]
    rfl
  · obtain ⟨h1, h2, h3, h4⟩ := pub_spent_run L acts
      ({ Pub.Server.new max authn boundary minCompress bufferSize comp with sock := { Pub.Socket.new minCompress bufferSize comp with transport := none } } : Pub.Server A) rfl rfl
    refine ⟨h3, h4, fun b as => ?_, fun t p => ⟨?_, ?_⟩⟩
    · simp [Pub.Socket.tryBind, h1]
    · simp only [Pub.Socket.publish]
      cases publishPrepare _ _ t p <;> simp [Pub.Socket.broadcast, h2]
    · simp only [Pub.Socket.tryPublish]
      cases tryPublishPrepare _ t p <;> simp [Pub.Socket.broadcast, h2]

/-! ## Reply socket -/

/-- Where a call of `bind` on a reply socket can be after some polls. -/
theorem rep_polls (s : Rep.Socket A) (es : List (BindEnv A)) (p : Progress A Bool) (s' : Rep.Socket A)
    (h : s.pollsBind .looking es = .ok (p, s')) :
    (p = .suspended .looking ∧ s' = s) ∨
    (p = .returned false ∧ s' = s ∧ ∃ e ∈ es, e.lookup = .failed) ∨
    (∃ l used cur, LooksUp es l used ∧ s.transport = some cur ∧
      ((∃ rest, p = .suspended (.binding cur rest) ∧ s' = { s with transport := none } ∧ ¬ ∀ e ∈ es, Prompt e) ∨
       (∃ r, p = .returned r ∧ ∀ bind, Answers bind l used → s.tryBind bind l = .ok (r, s')))) := by
  have key : ∀ (es used : List (BindEnv A)) (cur : Option A) (l rest : List A)
      (hl : ∀ bind, Answers bind l used → Answers bind rest es ∧ Pub.bindLoop bind cur l = Pub.bindLoop bind cur rest) (hs : s.transport = some cur),
      ({ s with transport := none } : Rep.Socket A).pollsBind (.binding cur rest) es = .ok (p, s') →
      (∃ rest, p = .suspended (.binding cur rest) ∧ s' = { s with transport := none }) ∨
      (∃ r, p = .returned r ∧ ∀ bind, Answers bind l used → s.tryBind bind l = .ok (r, s')) := by
    intro es
    induction es with
    | nil => intro used cur l rest hl hs h; cases h; exact .inl ⟨rest, rfl, rfl⟩
    | cons e es ih =>
      intro used cur l rest hl hs h
      simp only [Rep.Socket.pollsBind, Rep.Socket.pollBind, Rep.Socket.resumeBind, bind, R.bind] at h
      cases hp : bindPoll cur rest e.binds with
      | suspended rest' =>
        simp only [hp] at h
        refine ih used cur l rest' (fun bind ha => ?_) hs h
        obtain ⟨h1, h2⟩ := hl bind ha
        obtain ⟨h3, h4⟩ := (bindPoll_answers bind cur e.lookup es rest e.binds h1).2 rest' hp
        exact ⟨h3, h2.trans h4⟩
      | over la =>
        have hl' : ∀ bind, Answers bind l used → Pub.bindLoop bind cur l = la := fun bind ha => by
          obtain ⟨h1, h2⟩ := hl bind ha
          exact h2.trans ((bindPoll_answers bind cur e.lookup es rest e.binds h1).1 la hp)
        cases la with
        | none =>
          simp only [hp] at h
          cases h
          refine .inr ⟨false, rfl, fun bind ha => ?_⟩
          have h1 := hl' bind ha
          unfold Rep.Socket.tryBind
          simp only [hs, h1]
        | some x =>
          simp only [hp] at h
          by_cases hm : 2 ^ 63 ≤ s.max.getD 64
          · rw [if_pos hm] at h; cases h
          · rw [if_neg hm] at h
            cases h
            refine .inr ⟨true, rfl, fun bind ha => ?_⟩
            have h1 := hl' bind ha
            unfold Rep.Socket.tryBind
            simp only [hs, h1]
            rw [if_neg hm]
  induction es with
  | nil => cases h; exact .inl ⟨rfl, rfl⟩
  | cons e es ih =>
    simp only [Rep.Socket.pollsBind, Rep.Socket.pollBind, bind, R.bind] at h
    cases hl : e.lookup with
    | pending =>
      simp only [hl] at h
      rcases ih h with h | ⟨h1, h2, e', he', h3⟩ | ⟨l, used, cur, ⟨ws, e', rest', k1, k2, k3, k4⟩, h2, h3⟩
      · exact .inl h
      · exact .inr (.inl ⟨h1, h2, e', List.mem_cons_of_mem _ he', h3⟩)
      · refine .inr (.inr ⟨l, used, cur, ⟨e :: ws, e', rest', by simp [k1], k2, fun w hw => ?_, k4⟩, h2, ?_⟩)
        · rcases List.mem_cons.1 hw with rfl | hw
          · exact hl
          · exact k3 w hw
        · rcases h3 with ⟨rest, h3, h4, h5⟩ | h3
          · exact .inl ⟨rest, h3, h4, fun hp => h5 fun e he => hp e (List.mem_cons_of_mem _ he)⟩
          · exact .inr h3
    | failed =>
      simp only [hl] at h
      cases h
      exact .inr (.inl ⟨rfl, rfl, e, List.mem_cons_self .., hl⟩)
    | addrs l =>
      simp only [hl] at h
      cases hs : s.transport with
      | none => simp only [hs] at h; cases h
      | some cur =>
        simp only [hs] at h
        refine .inr (.inr ⟨l, e :: es, cur, ⟨[], e, es, rfl, rfl, (fun w hw => by simp at hw), hl⟩, rfl, ?_⟩)
        have h' : ({ s with transport := none } : Rep.Socket A).pollsBind (.binding cur l) (e :: es) = .ok (p, s') := by
          simp only [Rep.Socket.pollsBind, Rep.Socket.pollBind, bind, R.bind]
          exact h
        rcases key (e :: es) (e :: es) cur l l (fun bind ha => ⟨ha, rfl⟩) hs h' with ⟨rest, h1, h2⟩ | h1
        · refine .inl ⟨rest, h1, h2, fun hp => ?_⟩
          obtain ⟨hp1, hp2⟩ := hp e (List.mem_cons_self ..)
          have hns := bindPoll_prompt cur l e.binds (hp1 l hl) hp2
          simp only [Rep.Socket.resumeBind] at h
          cases hq : bindPoll cur l e.binds with
          | suspended rest' => exact hns rest' hq
          | over la =>
            cases la with
            | none => simp only [hq] at h; cases h; cases h1
            | some x =>
              simp only [hq] at h
              by_cases hm : 2 ^ 63 ≤ s.max.getD 64
              · rw [if_pos hm] at h; cases h
              · rw [if_neg hm] at h
                cases h; cases h1
        · exact .inr h1

/-- C113, a call of `bind` on a reply socket that returns, however often it was suspended on the way: either looking up the address failed, and the socket is as it was; or it did what `bind` (`Socket.tryBind`, C57, C82) does with the addresses looked up, the transport
answering as it did: if its answers, in order, were those `bind` says for the addresses, then the outcome is that of `tryBind bind`. -/
theorem C113_reply_returns (s s' : Rep.Socket A) (es : List (BindEnv A)) (r : Bool)
    (h : s.pollsBind .looking es = .ok (.returned r, s')) :
    (r = false ∧ s' = s ∧ ∃ e ∈ es, e.lookup = .failed) ∨
    (∃ l used, LooksUp es l used ∧ ∀ bind, Answers bind l used → s.tryBind bind l = .ok (r, s')) := by
  rcases rep_polls s es _ s' h with ⟨h, -⟩ | ⟨h1, h2⟩ | ⟨l, used, cur, h1, h2, ⟨rest, h3, -⟩ | ⟨r', h3, h4⟩⟩
  · cases h
  · cases h1; exact .inl ⟨rfl, h2⟩
  · cases h3
  · cases h3; exact .inr ⟨l, used, h1, h4⟩

/-- C113 (partial), reply socket: a call of `bind` that its owner gives up before it has returned has had no effect on the socket. Missing: a transport whose `bind` waits for something; then the
socket can be lost (`C113_reply_refuted`). -/
theorem C113_reply_partial (s s' : Rep.Socket A) (es : List (BindEnv A)) (f : BindFut A) (hp : ∀ e ∈ es, Prompt e)
    (h : s.pollsBind .looking es = .ok (.suspended f, s')) : s' = s := by
  rcases rep_polls s es _ s' h with ⟨-, h⟩ | ⟨h1, h2⟩ | ⟨l, used, cur, h1, h2, ⟨rest, h3, h4, h5⟩ | ⟨r', h3, h4⟩⟩
  · exact h
  · cases h1
  · exact absurd hp h5
  · cases h3

theorem rep_spent_run [DecidableEq A] {D : Decompressors} (acts : List (Rep.SAct A)) {s t : Rep.Socket A} (hr : s.run D acts = .ok t) (h1 : s.transport = none) :
    t.transport = none ∧ t.drv.isSome = s.drv.isSome ∧ t.localAddr = s.localAddr := by
  induction acts generalizing s with
  | nil => cases hr; exact ⟨h1, rfl, rfl⟩
  | cons a acts ih =>
    simp only [Rep.Socket.run] at hr
    cases ha : s.act D a with
    | panic => rw [ha] at hr; cases hr
    | ok s1 =>
      rw [ha] at hr
      obtain ⟨k1, k2, k3⟩ := act_spent a ha h1
      obtain ⟨j1, j2, j3⟩ := ih hr k1
      exact ⟨j1, j2.trans k2, j3.trans k3⟩

/-- C113 does not hold of the code, reply socket: if the transport's `bind` has to wait for something for the first address and the call is given up there, the socket is lost: whatever happens afterwards, it has no address, no background task, panics
when polled for requests, and every further `bind` panics. -/
theorem C113_reply_refuted [DecidableEq A] (D : Decompressors) (max : Option Nat) (authn : Option (Bytes → Bool)) (comp : Option Compressor)
    (e : BindEnv A) (a : A) (as : List A) (hl : e.lookup = .addrs (a :: as)) (hw : e.binds = [.pending]) :
    ∃ f k, (Rep.Socket.new max authn comp : Rep.Socket A).pollsBind .looking [e] = .ok (.suspended f, k) ∧
      ∀ (acts : List (Rep.SAct A)) (s : Rep.Socket A), k.run D acts = .ok s →
        s.localAddr = none ∧ s.drv = none ∧ s.pollNext = .panic ∧ ∀ bind addrs, s.tryBind bind addrs = .panic := by
  refine ⟨.binding none (a :: as), { Rep.Socket.new max authn comp with transport := none }, ?_, fun acts s hr => ?_⟩
  · simp only [Rep.Socket.pollsBind, Rep.Socket.pollBind, hl, hw, bind, R.bind, Rep.Socket.new]
    rfl
  · obtain ⟨h1, h2, h3⟩ := rep_spent_run acts hr rfl
    have h2' : s.drv = none := by
      cases hd : s.drv with
      | none => rfl
      | some d => rw [hd] at h2; cases h2
    exact ⟨h3, h2', by simp [Rep.Socket.pollNext, h2'], fun b as => by simp [Rep.Socket.tryBind, h1]⟩

/-! ## Request socket -/

/-- C113, request socket: a call of `connect` that is given up has had no effect; one that returns either failed to get an address and had none, or did what `connect` (`Socket.tryConnect`, C78) does. -/
theorem C113_connect (s : Req.Socket) (es : List (LookupAns A)) :
    ((s.pollsConnect es).1 = none → (s.pollsConnect es).2 = s) ∧
    (∀ r, (s.pollsConnect es).1 = some r →
      (r = .io ∨ r = .noValidEndpoints) ∧ (s.pollsConnect es).2 = s ∨
      r = (if s.tryConnect.1 then .ok else .panicked) ∧ (s.pollsConnect es).2 = s.tryConnect.2 ∧ ∃ a as, .addrs (a :: as) ∈ es) := by
  induction es with
  | nil => exact ⟨fun _ => rfl, fun r h => by cases h⟩
  | cons e es ih =>
    rcases e with _ | _ | (_ | ⟨a, as⟩)
    · simp only [Req.Socket.pollsConnect, Req.Socket.pollConnect]
      refine ⟨ih.1, fun r h => ?_⟩
      rcases ih.2 r h with h | ⟨h1, h2, a, as, h3⟩
      · exact .inl h
      · exact .inr ⟨h1, h2, a, as, List.mem_cons_of_mem _ h3⟩
    · simp only [Req.Socket.pollsConnect, Req.Socket.pollConnect]
      exact ⟨fun h => (by cases h), fun r h => (by cases h; exact .inl ⟨.inl rfl, trivial⟩)⟩
    · simp only [Req.Socket.pollsConnect, Req.Socket.pollConnect]
      exact ⟨fun h => (by cases h), fun r h => (by cases h; exact .inl ⟨.inr rfl, trivial⟩)⟩
    · simp only [Req.Socket.pollsConnect, Req.Socket.pollConnect]
      exact ⟨fun h => (by cases h), fun r h => (by cases h; exact .inr ⟨rfl, trivial, a, as, List.mem_cons_self ..⟩)⟩

/-! ## Examples -/

/-- The lookup takes two polls; the first address cannot be bound, the second can: `bind` returns `Ok`. -/
def slowLookup : List (BindEnv Nat) := [⟨.pending, []⟩, ⟨.pending, []⟩, ⟨.addrs [1, 2], [.failed, .bound 2]⟩]

example : ∃ k, (Pub.Socket.new 8 4 none : Pub.Socket Nat).pollsBind .looking slowLookup = .ok (.returned (.ok ()), k) ∧ k.localAddr = some 2 := ⟨_, rfl, rfl⟩
example : ∃ k, (Rep.Socket.new none none none : Rep.Socket Nat).pollsBind .looking slowLookup = .ok (.returned true, k) ∧ k.localAddr = some 2 := ⟨_, rfl, rfl⟩
example : ∀ e ∈ slowLookup, Prompt e := by
  simp [slowLookup, Prompt]
example : LooksUp slowLookup [1, 2] [⟨.addrs [1, 2], [.failed, .bound 2]⟩] ∧
    Answers (fun a => if a = 2 then some 2 else none) [1, 2] [⟨.addrs [1, 2], [.failed, .bound 2]⟩] := by
  refine ⟨⟨[⟨.pending, []⟩, ⟨.pending, []⟩], _, [], rfl, rfl, by simp, rfl⟩, fun i a o hi ho => ?_⟩
  match i, hi, ho with
  | 0, hi, ho => cases hi; cases ho; rfl
  | 1, hi, ho => cases hi; cases ho; rfl
/-- Given up during the lookup: nothing happened, and the socket can still be bound. -/
example : ∃ k k', (Pub.Socket.new 8 4 none : Pub.Socket Nat).pollsBind .looking (slowLookup.take 2) = .ok (.suspended .looking, k) ∧
    k.pollsBind .looking slowLookup = .ok (.returned (.ok ()), k') := ⟨_, _, rfl, rfl⟩
example : ((Req.Socket.new {} none 0).pollsConnect [LookupAns.pending, .addrs [7]]).1 = some .ok := by decide +kernel

end MsgRs.Props
