import Verif.Proofs.SubInv
import Verif.Proofs.Trie
/-!
# Subscriptions in the subscriber's driver
-/
namespace MsgRs.Sub
open MsgRs

variable {A : Type} [DecidableEq A] {L : Lossy} {D : Decompressors}

/-- What telling the sessions something does not change. -/
theorem tell_same (c : Cmd) (l : List (A × PState)) (d : Driver A) :
    (d.tell c l).topics = d.topics ∧ (d.tell c l).processed = d.processed ∧ (d.tell c l).cmdq = d.cmdq ∧
    (d.tell c l).keys = d.keys ∧ (d.tell c l).tasks = d.tasks ∧ (d.tell c l).inbox = d.inbox ∧
    (d.tell c l).received = d.received ∧ (d.tell c l).closed = d.closed ∧ (d.tell c l).started = d.started ∧
    (d.tell c l).opts = d.opts ∧ (d.tell c l).addrs = d.addrs ∧ (d.tell c l).fates = d.fates ∧
    (d.tell c l).stats = d.stats := by
  refine tell_induct (P := fun e => e.topics = d.topics ∧ e.processed = d.processed ∧ e.cmdq = d.cmdq ∧
    e.keys = d.keys ∧ e.tasks = d.tasks ∧ e.inbox = d.inbox ∧ e.received = d.received ∧ e.closed = d.closed ∧
    e.started = d.started ∧ e.opts = d.opts ∧ e.addrs = d.addrs ∧ e.fates = d.fates ∧ e.stats = d.stats) c
    (fun _ _ _ h _ => h) ?_ l d ⟨rfl, rfl, rfl, rfl, rfl, rfl, rfl, rfl, rfl, rfl, rfl, rfl, rfl⟩
  intro e a h
  rw [reset_eq]
  exact h

theorem offer_offered (s : Session) (c : Cmd) : (s.offer c).2.offered = s.offered ++ [c] := by
  unfold Session.offer
  repeat' split
  all_goals rfl

theorem offer_over (s : Session) (c : Cmd) : (s.offer c).2.over = s.over := by
  unfold Session.offer
  repeat' split
  all_goals rfl

theorem offer_closed {s : Session} {c : Cmd} {s' : Session} (h : s.offer c = (.closed, s')) : s.over = true := by
  unfold Session.offer at h
  repeat' split at h
  all_goals first | assumption | cases h

/-- What `tell` does at one active publisher. -/
def Driver.tellOne (d : Driver A) (c : Cmd) (a : A) (u : Nat) (s : Session) : Driver A :=
  if s.over then { d with sessions := d.sessions.set u (s.offer c).2 }.resetPublisher a
  else { d with sessions := d.sessions.set u (s.offer c).2 }

theorem tell_cons (d : Driver A) (c : Cmd) (a : A) (u : Nat) (s : Session) (l : List (A × PState))
    (hs : d.sessions[u]? = some s) : d.tell c ((a, .active u) :: l) = (d.tellOne c a u s).tell c l := by
  simp only [Driver.tell, hs, Driver.tellOne, Session.offer]
  cases s.over with
  | true => rfl
  | false =>
    by_cases h : s.cmds.length < cmdsCap
    · simp [h]
    · simp [h]

theorem DInv.tellOne {d : Driver A} (hi : DInv L D d) (c : Cmd) (a : A) (u : Nat) (s : Session)
    (hs : d.sessions[u]? = some s) : DInv L D (d.tellOne c a u s) := by
  unfold Driver.tellOne
  split
  · exact (hi.set hs (SUpd.offer s c)).reset a
  · exact hi.set hs (SUpd.offer s c)

theorem tellOne_self {d : Driver A} (c : Cmd) {a : A} {u : Nat} {s : Session}
    (hl : lookup a d.pubs = some (.active u)) (hs : d.sessions[u]? = some s) :
    (s.over = false → lookup a (d.tellOne c a u s).pubs = some (.active u) ∧
      (d.tellOne c a u s).sessions[u]? = some (s.offer c).2) ∧
    (s.over = true → ∀ v, lookup a (d.tellOne c a u s).pubs ≠ some (.active v)) := by
  unfold Driver.tellOne
  constructor
  · intro ho
    simp only [ho, Bool.false_eq_true, if_false]
    exact ⟨hl, by simp [(List.getElem?_eq_some_iff.1 hs).1]⟩
  · intro ho v
    simp only [ho, if_true, reset_eq, lookup_insert_self]
    simp

theorem tellOne_other {d : Driver A} (hi : DInv L D d) (c : Cmd) {a b : A} {u : Nat} {s : Session}
    (hl : lookup a d.pubs = some (.active u)) (hs : d.sessions[u]? = some s) (hb : b ≠ a) :
    lookup b (d.tellOne c a u s).pubs = lookup b d.pubs ∧
    ∀ v, lookup b d.pubs = some (.active v) → (d.tellOne c a u s).sessions[v]? = d.sessions[v]? := by
  have hne : ∀ v, lookup b d.pubs = some (.active v) → v ≠ u := by
    rintro v hv rfl
    have h1 := (hi.act a v hl).1
    have h2 := (hi.act b v hv).1
    rw [h1] at h2; cases h2; exact hb rfl
  unfold Driver.tellOne
  split
  · rw [reset_eq]
    refine ⟨lookup_insert_ne hb _ _, ?_⟩
    intro v hv
    have := hne v hv
    simp only [hangUp_get, hl]
    have h3 : ¬ (some (PState.active u) = some (.active v)) := by simp [Ne.symm this]
    simp [h3, Ne.symm this]
  · refine ⟨rfl, ?_⟩
    intro v hv
    simp [Ne.symm (hne v hv)]

/-- What telling all publishers in a list does to each. -/
theorem tell_get (c : Cmd) (l : List (A × PState)) (d : Driver A) (hi : DInv L D d) (hn : (l.map (·.1)).Nodup)
    (hc : ∀ x ∈ l, lookup x.1 d.pubs = some x.2) :
    (∀ b, b ∉ l.map (·.1) → lookup b (d.tell c l).pubs = lookup b d.pubs) ∧
    (∀ b v, b ∉ l.map (·.1) → lookup b d.pubs = some (.active v) → (d.tell c l).sessions[v]? = d.sessions[v]?) ∧
    (∀ b v, (b, PState.active v) ∈ l → ∀ s, d.sessions[v]? = some s →
      (s.over = false → lookup b (d.tell c l).pubs = some (.active v) ∧ (d.tell c l).sessions[v]? = some (s.offer c).2) ∧
      (s.over = true → ∀ w, lookup b (d.tell c l).pubs ≠ some (.active w))) ∧
    (∀ b k, (b, PState.inactive k) ∈ l → lookup b (d.tell c l).pubs = some (.inactive k)) := by
  induction l generalizing d with
  | nil =>
    refine ⟨fun _ _ => rfl, fun _ _ _ _ => rfl, ?_, ?_⟩
    · intro b v h; cases h
    · intro b k h; cases h
  | cons x l ih =>
    obtain ⟨a, st⟩ := x
    simp only [List.map_cons, List.nodup_cons] at hn
    have hla := hc _ List.mem_cons_self
    simp only at hla
    have hmem : ∀ {b st'}, (b, st') ∈ l → b ≠ a := by
      rintro b st' h rfl
      exact hn.1 (List.mem_map.2 ⟨_, h, rfl⟩)
    cases st with
    | inactive k =>
      obtain ⟨h1, h2, h3, h4⟩ := ih d hi hn.2 (fun x hx => hc x (List.mem_cons_of_mem _ hx))
      simp only [Driver.tell]
      refine ⟨fun b hb => h1 b (fun h => hb (List.mem_cons_of_mem _ h)),
        fun b v hb => h2 b v (fun h => hb (List.mem_cons_of_mem _ h)), ?_, ?_⟩
      · intro b v hb
        rcases List.mem_cons.1 hb with h | h
        · cases h
        · exact h3 b v h
      · intro b k' hb
        rcases List.mem_cons.1 hb with h | h
        · cases h; rw [h1 a hn.1]; exact hla
        · exact h4 b k' h
    | active u =>
      obtain ⟨-, s, hs, -⟩ := hi.act a u hla
      rw [tell_cons d c a u s l hs]
      have hself := tellOne_self c hla hs
      have hoth := fun b (hb : b ≠ a) => tellOne_other hi c hla hs hb
      obtain ⟨h1, h2, h3, h4⟩ := ih (d.tellOne c a u s) (hi.tellOne c a u s hs) hn.2 (by
        intro x hx
        rw [(hoth x.1 (hmem (st' := x.2) hx)).1]
        exact hc x (List.mem_cons_of_mem _ hx))
      refine ⟨?_, ?_, ?_, ?_⟩
      · intro b hb
        simp only [List.map_cons, List.mem_cons, not_or] at hb
        rw [h1 b hb.2, (hoth b hb.1).1]
      · intro b v hb hv
        simp only [List.map_cons, List.mem_cons, not_or] at hb
        rw [h2 b v hb.2 (by rw [(hoth b hb.1).1]; exact hv), (hoth b hb.1).2 v hv]
      · intro b v hb w hw
        rcases List.mem_cons.1 hb with h | h
        · cases h
          rw [hs] at hw; cases hw
          refine ⟨fun ho => ?_, fun ho z => ?_⟩
          · obtain ⟨g1, g2⟩ := hself.1 ho
            rw [h1 a hn.1, h2 a u hn.1 g1]
            exact ⟨g1, g2⟩
          · rw [h1 a hn.1]; exact hself.2 ho z
        · have hba := hmem h
          refine h3 b v h w ?_
          rw [(hoth b hba).2 v (hc _ (List.mem_cons_of_mem _ h))]
          exact hw
      · intro b k hb
        rcases List.mem_cons.1 hb with h | h
        · cases h
        · exact h4 b k h

/-- What telling all publishers does. -/
theorem tell_all (c : Cmd) (d : Driver A) (hi : DInv L D d) {a : A} {u : Nat} :
    (lookup a (d.tell c d.pubs).pubs = some (.active u) ↔
      lookup a d.pubs = some (.active u) ∧ ∃ s, d.sessions[u]? = some s ∧ s.over = false) ∧
    (lookup a d.pubs = some (.active u) → ∀ s, d.sessions[u]? = some s → s.over = false →
      (d.tell c d.pubs).sessions[u]? = some (s.offer c).2) := by
  obtain ⟨h1, h2, h3, h4⟩ := tell_get c d.pubs d hi hi.nodup (fun x hx => lookup_of_mem hi.nodup hx)
  refine ⟨⟨fun h => ?_, ?_⟩, ?_⟩
  · by_cases hm : a ∈ d.pubs.map (·.1)
    · obtain ⟨⟨b, st⟩, hx, rfl⟩ := List.mem_map.1 hm
      cases st with
      | inactive k => rw [h4 b k hx] at h; cases h
      | active v =>
        have hl := lookup_of_mem hi.nodup hx
        obtain ⟨-, s, hs, -⟩ := hi.act b v hl
        cases ho : s.over with
        | true => exact absurd h ((h3 b v hx s hs).2 ho u)
        | false =>
          rw [((h3 b v hx s hs).1 ho).1] at h; cases h
          exact ⟨hl, s, hs, ho⟩
    · rw [h1 a hm] at h
      exact absurd (List.mem_map.2 ⟨_, mem_of_lookup h, rfl⟩) hm
  · rintro ⟨hl, s, hs, ho⟩
    exact ((h3 a u (mem_of_lookup hl) s hs).1 ho).1
  · intro hl s hs ho
    exact ((h3 a u (mem_of_lookup hl) s hs).1 ho).2

/-! ## The invariant -/

/-- Subscriptions: what the user asked for, and what each connected publisher was (at least attempted to be) told. -/
structure TInv (d : Driver A) : Prop where
  topics : ∀ t, t ∈ d.topics ↔ Spec.active (d.processed.filterMap Command.op) t = true
  offered : ∀ a (u : Nat) (s : Session), lookup a d.pubs = some (.active u) → d.sessions[u]? = some s →
    ∀ t, Spec.active (s.offered.map Cmd.op) t = decide (t ∈ d.topics)
  src : ∀ (u : Nat) (s : Session), d.sessions[u]? = some s → ∀ c ∈ s.offered, c.op ∈ d.processed.filterMap Command.op

theorem TInv.mono {d e : Driver A} (hi : TInv d) (ht : e.topics = d.topics) (hp : e.processed = d.processed)
    (ha : ∀ a u, lookup a e.pubs = some (.active u) → lookup a d.pubs = some (.active u))
    (hs : ∀ (u : Nat) (s' : Session), e.sessions[u]? = some s' → ∃ s, d.sessions[u]? = some s ∧ s'.offered = s.offered) :
    TInv e where
  topics := by intro t; rw [ht, hp]; exact hi.topics t
  offered := by
    intro a u s hl hu t
    obtain ⟨s0, h1, h2⟩ := hs u s hu
    rw [ht, h2]
    exact hi.offered a u s0 (ha a u hl) h1 t
  src := by
    intro u s hu c hc
    obtain ⟨s0, h1, h2⟩ := hs u s hu
    rw [hp]
    exact hi.src u s0 h1 c (h2 ▸ hc)

theorem TInv.init {opts : Options} {now : Nat} {d : Driver A} (h : Driver.new opts now = .ok d) : TInv d := by
  unfold Driver.new at h
  split at h
  · cases h
  · cases h
    exact {
      topics := by intro t; simp [Spec.active]
      offered := by intro a u s h; cases h
      src := by intro u s h; simp at h }

theorem SStep.offered {s s' : Session} (h : SStep L s s') : s'.offered = s.offered := by
  cases h
  all_goals try (simp only [Session.onIncoming]; split)
  all_goals rfl

theorem offerAll_offered (s : Session) (ts : List Str) :
    (offerAll s ts).offered = s.offered ++ ts.map Cmd.subscribe := by
  induction ts generalizing s with
  | nil => simp [offerAll]
  | cons t ts ih => simp only [offerAll, ih, offer_offered]; simp

theorem active_subs (ts : List Str) (t : Str) : Spec.active (ts.map Spec.Op.sub) t = decide (t ∈ ts) := by
  refine Trie.snoc_induction (P := fun ts => Spec.active (ts.map Spec.Op.sub) t = decide (t ∈ ts)) (by simp [Spec.active]) ?_ ts
  intro l a ih
  rw [List.map_append, List.map_singleton, Trie.active_snoc, ih]
  by_cases h : a = t
  · simp [h]
  · simp [h, Ne.symm h]

theorem active_mem (ops : List Spec.Op) (t : Str) (h : Spec.active ops t = true) : Spec.Op.sub t ∈ ops := by
  refine Trie.snoc_induction (P := fun ops => Spec.active ops t = true → Spec.Op.sub t ∈ ops) (by simp [Spec.active]) ?_ ops h
  intro l o ih h
  rw [Trie.active_snoc] at h
  cases o with
  | sub q =>
    by_cases hq : q = t
    · subst hq; simp
    · simp only [hq, if_false] at h; exact List.mem_append_left _ (ih h)
  | unsub q =>
    by_cases hq : q = t
    · simp [hq] at h
    · simp only [hq, if_false] at h; exact List.mem_append_left _ (ih h)

theorem hangUp_offered (d : Driver A) (a : A) (u : Nat) (s' : Session) (h : (d.hangUp a).sessions[u]? = some s') :
    ∃ s, d.sessions[u]? = some s ∧ s'.offered = s.offered := by
  rw [hangUp_get] at h
  cases hs : d.sessions[u]? with
  | none => rw [hs] at h; cases h
  | some s =>
    rw [hs] at h
    simp only [Option.map_some] at h
    refine ⟨s, rfl, ?_⟩
    split at h <;> cases h <;> rfl

theorem TInv.reset {d : Driver A} (hi : TInv d) (a : A) : TInv (d.resetPublisher a) := by
  rw [reset_eq]
  refine hi.mono rfl rfl ?_ (hangUp_offered d a)
  intro b u h
  by_cases hb : b = a
  · subst hb; simp only [lookup_insert_self] at h; cases h
  · simp only [lookup_insert_ne hb] at h; exact h

theorem set_offered {d : Driver A} {u : Nat} {s s' : Session} (hu : d.sessions[u]? = some s) (ho : s'.offered = s.offered)
    (i : Nat) (t : Session) (h : (d.sessions.set u s')[i]? = some t) :
    ∃ s, d.sessions[i]? = some s ∧ t.offered = s.offered := by
  rcases get_set hu h with ⟨rfl, rfl⟩ | ⟨_, h⟩
  · exact ⟨s, hu, ho⟩
  · exact ⟨t, h, rfl⟩

theorem TInv.connect {d : Driver A} (hi : TInv d) (a : A) : TInv (d.connect a) := by
  unfold Driver.connect
  split
  · exact hi
  · exact hi.mono rfl rfl (fun _ _ h => h) (fun u s h => ⟨s, h, rfl⟩)

/-- Telling everyone about a change of the set of topics. `op` is the operation just processed. -/
theorem TInv.tell {d : Driver A} (hi : TInv d) (hd : DInv L D d) (c : Cmd) (x : Command A) (q : List (Command A))
    (topics : List Str) (hu : topics.Nodup)
    (hx : x.op = some c.op) (ht : ∀ t, t ∈ topics ↔ Spec.active ((d.processed ++ [x]).filterMap Command.op) t = true) :
    TInv ({ d with cmdq := q, processed := d.processed ++ [x], topics }.tell c d.pubs) := by
  have hd' : DInv L D { d with cmdq := q, processed := d.processed ++ [x], topics } := { hd with uniq := hu }
  have hsame := tell_same c d.pubs { d with cmdq := q, processed := d.processed ++ [x], topics }
  have hall := fun {a : A} {u : Nat} => tell_all c { d with cmdq := q, processed := d.processed ++ [x], topics } hd' (a := a) (u := u)
  have hsrc : ∀ (u : Nat) (s : Session),
      ({ d with cmdq := q, processed := d.processed ++ [x], topics }.tell c d.pubs).sessions[u]? = some s →
      ∀ k ∈ s.offered, k.op ∈ (d.processed ++ [x]).filterMap Command.op := by
    refine tell_induct (P := fun e => ∀ (u : Nat) (s : Session), e.sessions[u]? = some s →
      ∀ k ∈ s.offered, k.op ∈ (d.processed ++ [x]).filterMap Command.op) c ?_ ?_ d.pubs _ ?_
    · intro e v w he hw u s hs k hk
      rcases get_set hw hs with ⟨rfl, rfl⟩ | ⟨_, h⟩
      · rw [offer_offered] at hk
        rcases List.mem_append.1 hk with h | h
        · exact he _ w hw k h
        · simp at h; subst h
          simp [hx]
      · exact he u s h k hk
    · intro e b he u s hs k hk
      rw [reset_eq] at hs
      obtain ⟨w, h1, h2⟩ := hangUp_offered e b u s hs
      exact he u w h1 k (h2 ▸ hk)
    · intro u s hs k hk
      rw [List.filterMap_append]
      exact List.mem_append_left _ (hi.src u s hs k hk)
  generalize hE : ({ d with cmdq := q, processed := d.processed ++ [x], topics }.tell c d.pubs) = E at *
  obtain ⟨h1, h2, -⟩ := hsame
  simp only at h1 h2
  refine ⟨?_, ?_, ?_⟩
  · intro t; rw [h1, h2]; exact ht t
  · intro a u s hl hs t
    rw [h1]
    obtain ⟨g1, s0, g2, g3⟩ := (hall.1).1 hl
    have g4 := hall.2 g1 s0 g2 g3
    rw [g4] at hs; cases hs
    rw [offer_offered, List.map_append, List.map_singleton, Trie.active_snoc]
    have hold := hi.offered a u s0 g1 g2 t
    have hiff := ht t
    rw [List.filterMap_append] at hiff
    simp only [List.filterMap_cons, hx, List.filterMap_nil, Trie.active_snoc] at hiff
    have htop := hi.topics t
    cases hc : c.op with
    | sub y =>
      rw [hc] at hiff
      by_cases hy : y = t
      · simp only [hy, if_true, iff_true] at hiff ⊢; simp [hiff]
      · simp only [hy, if_false] at hiff ⊢
        rw [hold]
        by_cases hm : t ∈ d.topics
        · simp [hm, hiff.2 (htop.1 hm)]
        · have : t ∉ topics := fun h => hm (htop.2 (hiff.1 h))
          simp [hm, this]
    | unsub y =>
      rw [hc] at hiff
      by_cases hy : y = t
      · simp only [hy, if_true] at hiff ⊢
        have : t ∉ topics := fun h => by have := hiff.1 h; cases this
        simp [this]
      · simp only [hy, if_false] at hiff ⊢
        rw [hold]
        by_cases hm : t ∈ d.topics
        · simp [hm, hiff.2 (htop.1 hm)]
        · have : t ∉ topics := fun h => hm (htop.2 (hiff.1 h))
          simp [hm, this]
  · intro u s hs k hk
    rw [h2]
    exact hsrc u s hs k hk

/-- A command that is not a subscription or changes nothing. -/
theorem TInv.idle {d : Driver A} (hi : TInv d) (x : Command A) (q : List (Command A))
    (ht : ∀ t, Spec.active ((d.processed ++ [x]).filterMap Command.op) t = Spec.active (d.processed.filterMap Command.op) t) :
    TInv { d with cmdq := q, processed := d.processed ++ [x] } where
  topics := by intro t; rw [ht]; exact hi.topics t
  offered := hi.offered
  src := by
    intro u s hs k hk
    rw [List.filterMap_append]
    exact List.mem_append_left _ (hi.src u s hs k hk)

theorem TInv.command {d : Driver A} (hi : TInv d) (hd : DInv L D d) (x : Command A) (q : List (Command A)) :
    TInv ({ d with cmdq := q, processed := d.processed ++ [x] }.onCommand x) := by
  have happ : ∀ t, Spec.active ((d.processed ++ [x]).filterMap Command.op) t =
      match x.op with
      | none => Spec.active (d.processed.filterMap Command.op) t
      | some (.sub q) => if q = t then true else Spec.active (d.processed.filterMap Command.op) t
      | some (.unsub q) => if q = t then false else Spec.active (d.processed.filterMap Command.op) t := by
    intro t
    rw [List.filterMap_append]
    cases hx : x.op with
    | none => simp [hx]
    | some o => simp only [List.filterMap_cons, hx, List.filterMap_nil, Trie.active_snoc]; cases o <;> rfl
  cases x with
  | shutdown => exact hi.idle _ q (by intro t; rw [happ]; rfl)
  | connect a =>
    have h0 := hi.idle (.connect a) q (by intro t; rw [happ]; rfl)
    simp only [Driver.onCommand]
    split
    · exact h0
    · exact (h0.connect a).reset a
  | disconnect a =>
    have h0 := hi.idle (.disconnect a) q (by intro t; rw [happ]; rfl)
    simp only [Driver.onCommand]
    split
    · rw [hangUp_eq]
      refine h0.mono rfl rfl ?_ (hangUp_offered _ a)
      intro b u h
      by_cases hb : b = a
      · subst hb; simp only [lookup_erase_self] at h; cases h
      · simp only [lookup_erase_ne hb] at h; exact h
    · exact h0
  | subscribe t =>
    simp only [Driver.onCommand, Driver.subscribe]
    split
    · rename_i hm
      refine hi.idle _ q ?_
      intro t'
      rw [happ]
      simp only [Command.op]
      split
      · rename_i h; subst h; rw [(hi.topics _).1 hm]
      · rfl
    · rename_i hm
      refine hi.tell hd (.subscribe t) (.subscribe t) q (d.topics ++ [t]) ?_ rfl ?_
      · rw [List.nodup_append]
        exact ⟨hd.uniq, by simp, by rintro x hx y hy rfl; simp at hy; subst hy; exact hm hx⟩
      · intro t'
        rw [happ]
        simp only [Command.op]
        split
        · rename_i h; subst h; simp
        · rename_i h; simp [Ne.symm h, hi.topics t']
  | unsubscribe t =>
    simp only [Driver.onCommand, Driver.unsubscribe]
    split
    · rename_i hm
      refine hi.tell hd (.unsubscribe t) (.unsubscribe t) q (d.topics.filter (· ≠ t)) (hd.uniq.sublist List.filter_sublist) rfl ?_
      intro t'
      rw [happ]
      simp only [Command.op]
      split
      · rename_i h; subst h; simp
      · rename_i h; simp [Ne.symm h, hi.topics t']
    · rename_i hm
      refine hi.idle _ q ?_
      intro t'
      rw [happ]
      simp only [Command.op]
      split
      · rename_i h; subst h
        have : ¬ (Spec.active (d.processed.filterMap Command.op) t = true) := fun h => hm ((hi.topics _).2 h)
        simpa using this
      · rfl

theorem TInv.onConnection {d : Driver A} (hi : TInv d) (hd : DInv L D d) (order : List Str) (a : A) (via : HsEnv)
    (input : List ReadAns) : TInv (d.onConnection order a via input) := by
  unfold Driver.onConnection
  split
  · exact hi
  · have hts : ∀ t, t ∈ (if order.isPerm d.topics then order else d.topics) ↔ t ∈ d.topics := by
      intro t
      split
      · rename_i h; exact (List.isPerm_iff.1 h).mem_iff
      · rfl
    generalize (if order.isPerm d.topics then order else d.topics) = ts at *
    have hof : (offerAll (Session.new d.opts.readBuffer via input) ts).offered = ts.map Cmd.subscribe := by
      rw [offerAll_offered]; rfl
    have hop : ((ts.map Cmd.subscribe).map Cmd.op) = ts.map Spec.Op.sub := by
      rw [List.map_map]; rfl
    simp only
    generalize offerAll (Session.new d.opts.readBuffer via input) ts = s0 at *
    have hget : ∀ {u s}, (d.sessions ++ [s0])[u]? = some s → (u < d.sessions.length ∧ d.sessions[u]? = some s) ∨ (u = d.sessions.length ∧ s = s0) := by
      intro u s h
      rw [List.getElem?_append] at h
      split at h
      · rename_i hlt; exact .inl ⟨hlt, h⟩
      · rename_i hge
        right
        rw [List.getElem?_singleton] at h
        split at h
        · cases h; exact ⟨by omega, rfl⟩
        · cases h
    refine ⟨hi.topics, ?_, ?_⟩
    · intro b u s hl hs t
      by_cases hb : b = a
      · subst hb
        simp only [lookup_insert_self] at hl
        cases hl
        rcases hget hs with ⟨h, -⟩ | ⟨-, rfl⟩
        · omega
        · rw [hof, hop, active_subs]
          simp [hts t]
      · simp only [lookup_insert_ne hb] at hl
        obtain ⟨-, w, hw, -⟩ := hd.act b u hl
        rcases hget hs with ⟨-, h⟩ | ⟨h, -⟩
        · exact hi.offered b u s hl h t
        · have := (List.getElem?_eq_some_iff.1 hw).1; omega
    · intro u s hs c hc
      rcases hget hs with ⟨-, h⟩ | ⟨-, rfl⟩
      · exact hi.src u s h c hc
      · rw [hof] at hc
        obtain ⟨t, ht, rfl⟩ := List.mem_map.1 hc
        have := (hi.topics t).1 ((hts t).1 ht)
        exact active_mem _ t this

theorem TInv.step (d e : Driver A) (h : DStep L D d e) (hi : TInv d ∧ DInv L D d) : TInv e ∧ DInv L D e := by
  refine ⟨?_, DInv.step d e h hi.2⟩
  obtain ⟨hi, hd⟩ := hi
  have same : ∀ (u : Nat) (s : Session), d.sessions[u]? = some s → ∃ s', d.sessions[u]? = some s' ∧ s.offered = s'.offered :=
    fun u s h => ⟨s, h, rfl⟩
  cases h with
  | time dt => exact hi.mono rfl rfl (fun _ _ h => h) same
  | wake w => exact hi.mono rfl rfl (fun _ _ h => h) same
  | start h => exact hi.mono rfl rfl (fun _ _ h => h) same
  | push c hc hl => exact hi.mono rfl rfl (fun _ _ h => h) same
  | recv m ms hc hm => exact hi.mono rfl rfl (fun _ _ h => h) same
  | drop hc => exact hi.mono rfl rfl (fun _ _ h => h) same
  | session u s s' hu hs => exact hi.mono rfl rfl (fun _ _ h => h) (set_offered hu hs.offered)
  | command c q hq => exact hi.command hd c q
  | take a u s t ms payload hl hu ht hdec =>
    unfold Driver.deliver
    simp only
    repeat' split
    all_goals exact hi.mono rfl rfl (fun _ _ h => h) (set_offered hu rfl)
  | skip a u s t ms hl hu ht hdec => exact hi.mono rfl rfl (fun _ _ h => h) (set_offered hu rfl)
  | lost a u s hl hu ht ho => exact hi.reset a
  | arm a u s hl hu ht ho => exact hi.mono rfl rfl (fun _ _ h => h) (set_offered hu rfl)
  | backoff a b b' o hl hp =>
    refine hi.mono rfl rfl ?_ same
    intro x u h
    simp only [lookup_update] at h
    by_cases hx : x = a
    · subst hx; simp [hl] at h
    · simpa [hx] using h
  | retry a b hl => exact hi.connect a
  | terminate a b hl =>
    refine hi.mono rfl rfl ?_ same
    intro x u h
    by_cases hx : x = a
    · subst hx; simp only [lookup_erase_self] at h; cases h
    · simp only [lookup_erase_ne hx] at h; exact h
  | joinPanic i a ht => exact hi.mono rfl rfl (fun _ _ h => h) same
  | joinFail i a ht => exact hi.mono rfl rfl (fun _ _ h => h) same
  | joinOk i a order out via input ht hr =>
    exact TInv.onConnection (d := { d with tasks := d.tasks.eraseIdx i, keys := d.keys.filter (· ≠ a) })
      (hi.mono rfl rfl (fun _ _ h => h) same) (hd.joined ht) order a via input

theorem Reach.topics {d : Driver A} (h : Reach L D d) : TInv d := by
  have hi := h.inv
  obtain ⟨opts, now, d0, acts, h0, h1⟩ := h
  exact ((run_steps acts d0 d h1).induct TInv.step ⟨TInv.init h0, DInv.init h0⟩).1

end MsgRs.Sub
