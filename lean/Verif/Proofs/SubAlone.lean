import Verif.Spec.SubAlone
import Verif.Proofs.SubInv
/-!
# What happens to one publisher depends on what concerns it only

`Same a d e`: the publisher at `a` is in the same situation in the sockets `d` and `e`.
-/
namespace MsgRs.Sub
open MsgRs

variable {A : Type} [DecidableEq A] {L : Lossy} {D : Decompressors}

/-! ## Lists of addresses and sessions -/

def own (a : A) (as : List A) (ss : List Session) : List Session := ((as.zip ss).filter fun x => decide (x.1 = a)).map (·.2)

theorem ownSessions_eq (a : A) (d : Driver A) : ownSessions a d = own a d.addrs d.sessions := rfl

theorem own_cons_self (a : A) (as : List A) (s : Session) (ss : List Session) : own a (a :: as) (s :: ss) = s :: own a as ss := by
  simp [own]

theorem own_cons_ne {a b : A} (h : b ≠ a) (as : List A) (s : Session) (ss : List Session) : own a (b :: as) (s :: ss) = own a as ss := by
  simp [own, h]

theorem rank_succ (a b : A) (as : List A) (u : Nat) : rank a (b :: as) (u + 1) = rank a as u + (if b = a then 1 else 0) := by
  simp [rank, List.count_cons]

theorem own_get {a : A} : ∀ {as : List A} {ss : List Session} {u : Nat}, as.length = ss.length → as[u]? = some a → (own a as ss)[rank a as u]? = ss[u]?
  | [], _, _, _, h => by simp at h
  | b :: as, [], _, h, _ => by simp at h
  | b :: as, s :: ss, 0, _, h => by
    simp only [List.getElem?_cons_zero, Option.some.injEq] at h
    subst h
    simp [own_cons_self, rank]
  | b :: as, s :: ss, u + 1, hl, h => by
    simp only [List.length_cons, Nat.add_right_cancel_iff] at hl
    simp only [List.getElem?_cons_succ] at h
    have ih := own_get hl h
    rw [rank_succ]
    by_cases hb : b = a
    · subst hb; simp [own_cons_self, ih]
    · simp [own_cons_ne hb, hb, ih]

theorem own_set_self {a : A} (s' : Session) : ∀ {as : List A} {ss : List Session} {u : Nat}, as.length = ss.length → as[u]? = some a →
    own a as (ss.set u s') = (own a as ss).set (rank a as u) s'
  | [], _, _, _, h => by simp at h
  | b :: as, [], _, h, _ => by simp at h
  | b :: as, s :: ss, 0, _, h => by
    simp only [List.getElem?_cons_zero, Option.some.injEq] at h
    subst h
    simp [own_cons_self, rank]
  | b :: as, s :: ss, u + 1, hl, h => by
    simp only [List.length_cons, Nat.add_right_cancel_iff] at hl
    simp only [List.getElem?_cons_succ] at h
    have ih := own_set_self s' hl h
    rw [rank_succ]
    by_cases hb : b = a
    · subst hb; simp [own_cons_self, ih]
    · simp [own_cons_ne hb, hb, ih]

theorem own_congr {a : A} : ∀ {as : List A} {ss ss' : List Session}, ss.length = ss'.length → (∀ u : Nat, as[u]? = some a → ss'[u]? = ss[u]?) → own a as ss' = own a as ss
  | [], _, _, _, _ => by simp [own]
  | b :: as, [], [], _, _ => rfl
  | b :: as, s :: ss, s' :: ss', hl, h => by
    simp only [List.length_cons, Nat.add_right_cancel_iff] at hl
    have ih := own_congr (a := a) (as := as) hl fun u hu => (by simpa using h (u + 1) (by simpa using hu))
    by_cases hb : b = a
    · subst hb
      have h0 := h 0 (by simp)
      simp only [List.getElem?_cons_zero, Option.some.injEq] at h0
      rw [own_cons_self, own_cons_self, ih, h0]
    · rw [own_cons_ne hb, own_cons_ne hb, ih]
  | b :: as, [], s' :: ss', hl, _ => by simp at hl
  | b :: as, s :: ss, [], hl, _ => by simp at hl

theorem own_snoc_self {a : A} {as : List A} {ss : List Session} (hl : as.length = ss.length) (s : Session) : own a (as ++ [a]) (ss ++ [s]) = own a as ss ++ [s] := by
  simp [own, List.zip_append hl]

theorem own_snoc_ne {a b : A} (hb : b ≠ a) {as : List A} {ss : List Session} (hl : as.length = ss.length) (s : Session) :
    own a (as ++ [b]) (ss ++ [s]) = own a as ss := by
  simp [own, List.zip_append hl, hb]

theorem own_length {a : A} : ∀ {as : List A} {ss : List Session}, as.length = ss.length → (own a as ss).length = as.count a
  | [], [], _ => rfl
  | b :: as, [], h => by simp at h
  | [], s :: ss, h => by simp at h
  | b :: as, s :: ss, h => by
    simp only [List.length_cons, Nat.add_right_cancel_iff] at h
    have ih := own_length (a := a) h
    by_cases hb : b = a
    · subst hb; simp [own_cons_self, ih]
    · simp [own_cons_ne hb, ih, List.count_cons, hb]

theorem rank_append {a : A} {as bs : List A} {u : Nat} (h : u ≤ as.length) : rank a (as ++ bs) u = rank a as u := by
  simp [rank, List.take_append_of_le_length h]

theorem rank_inj {a : A} : ∀ {as : List A} {u v : Nat}, as[u]? = some a → as[v]? = some a → rank a as u = rank a as v → u = v
  | [], _, _, h, _, _ => by simp at h
  | b :: as, 0, 0, _, _, _ => rfl
  | b :: as, 0, v + 1, h, _, hr => by
    simp only [List.getElem?_cons_zero, Option.some.injEq] at h
    subst h
    rw [rank_succ] at hr
    simp [rank] at hr
  | b :: as, u + 1, 0, _, h, hr => by
    simp only [List.getElem?_cons_zero, Option.some.injEq] at h
    subst h
    rw [rank_succ] at hr
    simp [rank] at hr
  | b :: as, u + 1, v + 1, h, h', hr => by
    simp only [List.getElem?_cons_succ] at h h'
    rw [rank_succ, rank_succ] at hr
    rw [rank_inj h h' (by omega)]

/-! ## The situation of one publisher -/

def PState.renum (f : Nat → Nat) : PState → PState
  | .inactive b => .inactive b
  | .active u => .active (f u)

def Driver.entry (a : A) (d : Driver A) : Option PState := (lookup a d.pubs).map (PState.renum (rank a d.addrs))

structure Same (a : A) (d e : Driver A) : Prop where
  now : d.now = e.now
  opts : d.opts = e.opts
  topics : d.topics = e.topics
  entry : d.entry a = e.entry a
  task : a ∈ d.tasks ↔ a ∈ e.tasks
  key : a ∈ d.keys ↔ a ∈ e.keys
  sess : ownSessions a d = ownSessions a e
  taken : ownTaken a d = ownTaken a e

theorem Same.symm {a : A} {d e : Driver A} (h : Same a d e) : Same a e d :=
  ⟨h.now.symm, h.opts.symm, h.topics.symm, h.entry.symm, h.task.symm, h.key.symm, h.sess.symm, h.taken.symm⟩

theorem Same.trans {a : A} {d e f : Driver A} (h : Same a d e) (h' : Same a e f) : Same a d f :=
  ⟨h.now.trans h'.now, h.opts.trans h'.opts, h.topics.trans h'.topics, h.entry.trans h'.entry, h.task.trans h'.task, h.key.trans h'.key,
    h.sess.trans h'.sess, h.taken.trans h'.taken⟩

theorem Same.refl (a : A) (d : Driver A) : Same a d d := ⟨rfl, rfl, rfl, rfl, .rfl, .rfl, rfl, rfl⟩

/-- A step that leaves `a` alone and starts no session. -/
structure Keep (a : A) (d e : Driver A) : Prop where
  now : e.now = d.now
  opts : e.opts = d.opts
  topics : e.topics = d.topics
  addrs : e.addrs = d.addrs
  entry : lookup a e.pubs = lookup a d.pubs
  task : a ∈ e.tasks ↔ a ∈ d.tasks
  key : a ∈ e.keys ↔ a ∈ d.keys
  len : d.sessions.length = e.sessions.length
  sess : ∀ u : Nat, d.addrs[u]? = some a → e.sessions[u]? = d.sessions[u]?
  taken : ownTaken a e = ownTaken a d

theorem Keep.same {a : A} {d e : Driver A} (h : Keep a d e) : Same a e d where
  now := h.now
  opts := h.opts
  topics := h.topics
  entry := by rw [Driver.entry, Driver.entry, h.entry, h.addrs]
  task := h.task
  key := h.key
  sess := by rw [ownSessions_eq, ownSessions_eq, h.addrs]; exact own_congr h.len h.sess
  taken := h.taken

theorem Keep.refl (a : A) (d : Driver A) : Keep a d d := ⟨rfl, rfl, rfl, rfl, rfl, .rfl, .rfl, rfl, fun _ _ => rfl, rfl⟩

theorem Keep.trans {a : A} {d e f : Driver A} (h : Keep a d e) (h' : Keep a e f) : Keep a d f :=
  ⟨h'.now.trans h.now, h'.opts.trans h.opts, h'.topics.trans h.topics, h'.addrs.trans h.addrs, h'.entry.trans h.entry, h'.task.trans h.task,
    h'.key.trans h.key, h.len.trans h'.len, fun u hu => (h'.sess u (by rw [h.addrs]; exact hu)).trans (h.sess u hu), h'.taken.trans h.taken⟩

theorem Keep.set {a : A} (d : Driver A) {u : Nat} (hu : d.addrs[u]? ≠ some a) (s : Session) : Keep a d { d with sessions := d.sessions.set u s } := by
  refine ⟨rfl, rfl, rfl, rfl, rfl, .rfl, .rfl, by simp, fun v hv => ?_, rfl⟩
  have : u ≠ v := by rintro rfl; exact hu hv
  simp [this]

theorem Keep.reset {a b : A} (hb : b ≠ a) {d : Driver A} (hi : DInv L D d) : Keep a d (d.resetPublisher b) := by
  rw [reset_eq]
  refine ⟨rfl, rfl, rfl, rfl, lookup_insert_ne (Ne.symm hb) _ _, .rfl, .rfl, (hangUp_len d b).symm, fun u hu => ?_, rfl⟩
  simp only [hangUp_get]
  have : lookup b d.pubs ≠ some (.active u) := by
    intro h
    have := (hi.act b u h).1
    rw [hu] at this; cases this; exact hb rfl
  simp [this]

/-! ### Publishers are polled -/

theorem ownTaken_snoc (a : A) (d : Driver A) (u : Nat) (t : TopicMsg) (f : Fate) : ownTaken a { d with fates := d.fates ++ [(u, t, f)] } =
    ownTaken a d ++ if d.addrs[u]? = some a then [(rank a d.addrs u, t, decide (f ≠ .undecodable))] else [] := by
  simp only [ownTaken, List.filterMap_append, List.filterMap_cons, List.filterMap_nil]
  split <;> simp_all

theorem deliver_eq (d : Driver A) (a : A) (u : Nat) (t : TopicMsg) (p : Bytes) : ∃ f i, f ≠ Fate.undecodable ∧
    d.deliver a u t p = { d with inbox := i, fates := d.fates ++ [(u, t, f)] } := by
  unfold Driver.deliver
  split
  · exact ⟨.gone, d.inbox, by simp, rfl⟩
  · split
    · exact ⟨.delivered, _, by simp, rfl⟩
    · exact ⟨.full, d.inbox, by simp, rfl⟩

theorem pollPub_keep {a b : A} (hb : b ≠ a) {d d' : Driver A} {p : Bool} (hi : DInv L D d) (h : d.pollPub D b = .ok (d', p)) : Keep a d d' := by
  unfold Driver.pollPub at h
  split at h
  · cases h; exact .refl a d
  · rename_i u hl
    have hu : d.addrs[u]? ≠ some a := by
      rw [(hi.act b u hl).1]; simp [hb]
    split at h
    · cases h; exact .refl a d
    · split at h
      · rename_i t s' _
        simp only at h
        have hk := Keep.set (a := a) d hu s'
        split at h
        · cases h
          refine hk.trans ⟨rfl, rfl, rfl, rfl, rfl, .rfl, .rfl, rfl, fun _ _ => rfl, ?_⟩
          refine (ownTaken_snoc a { d with sessions := d.sessions.set u s' } u t .undecodable).trans ?_
          simp [hu]
        · cases h
          rename_i pl _
          obtain ⟨f, i, -, he⟩ := deliver_eq { d with sessions := d.sessions.set u s' } b u t pl
          rw [he]
          refine hk.trans ⟨rfl, rfl, rfl, rfl, rfl, .rfl, .rfl, rfl, fun _ _ => rfl, ?_⟩
          refine (ownTaken_snoc a { d with sessions := d.sessions.set u s', inbox := i } u t f).trans ?_
          simp [hu]; rfl
      · cases h; exact .reset hb hi
      · cases h; exact .set d hu _
  · rename_i bo hl
    cases hp : bo.poll d.now with
    | panic => rw [hp] at h; cases h
    | ok y =>
      obtain ⟨o, bo'⟩ := y
      rw [hp] at h
      simp only [R.bind_ok, R.pure_eq] at h
      have hne : lookup a (d.pubs.map fun y => if y.1 = b then (b, PState.inactive bo') else y) = lookup a d.pubs := by
        rw [lookup_update, if_neg (fun h => hb h.symm)]
      cases o with
      | pending => cases h; exact ⟨rfl, rfl, rfl, rfl, hne, .rfl, .rfl, rfl, fun _ _ => rfl, rfl⟩
      | item x =>
        cases h
        unfold Driver.connect
        split
        · exact ⟨rfl, rfl, rfl, rfl, hne, .rfl, .rfl, rfl, fun _ _ => rfl, rfl⟩
        · exact ⟨rfl, rfl, rfl, rfl, hne, by simp [Ne.symm hb], by simp [Ne.symm hb], rfl, fun _ _ => rfl, rfl⟩
      | ended =>
        cases h
        exact ⟨rfl, rfl, rfl, rfl, by simp only; rw [lookup_erase_ne (Ne.symm hb)]; exact hne, .rfl, .rfl, rfl, fun _ _ => rfl, rfl⟩

theorem Same.active {a : A} {d e : Driver A} (h : Same a d e) (hd : DInv L D d) (he : DInv L D e) {u : Nat} (hl : lookup a d.pubs = some (.active u)) :
    ∃ v s, lookup a e.pubs = some (.active v) ∧ d.addrs[u]? = some a ∧ e.addrs[v]? = some a ∧ rank a d.addrs u = rank a e.addrs v ∧
      d.sessions[u]? = some s ∧ e.sessions[v]? = some s := by
  have h1 := h.entry
  simp only [Driver.entry, hl, Option.map_some, PState.renum] at h1
  cases hv : lookup a e.pubs with
  | none => rw [hv] at h1; cases h1
  | some st =>
    rw [hv] at h1
    cases st with
    | inactive b => cases h1
    | active v =>
      simp only [Option.map_some, PState.renum, Option.some.injEq, PState.active.injEq] at h1
      obtain ⟨hu, s, hs, -⟩ := hd.act a u hl
      obtain ⟨hv', t, ht, -⟩ := he.act a v hv
      have k1 := own_get hd.len hu
      have k2 := own_get he.len hv'
      rw [← ownSessions_eq, h.sess, h1, ownSessions_eq, k2, hs, ht] at k1
      cases k1
      exact ⟨v, s, rfl, hu, hv', h1, hs, ht⟩

theorem Same.inactive {a : A} {d e : Driver A} (h : Same a d e) {b : Backoff} (hl : lookup a d.pubs = some (.inactive b)) :
    lookup a e.pubs = some (.inactive b) := by
  have h1 := h.entry
  simp only [Driver.entry, hl, Option.map_some, PState.renum] at h1
  cases hv : lookup a e.pubs with
  | none => rw [hv] at h1; cases h1
  | some st =>
    rw [hv] at h1
    cases st with
    | inactive b => simp only [Option.map_some, PState.renum, Option.some.injEq, PState.inactive.injEq] at h1; rw [h1]
    | active v => cases h1

theorem Same.absent {a : A} {d e : Driver A} (h : Same a d e) (hl : lookup a d.pubs = none) : lookup a e.pubs = none := by
  have h1 := h.entry
  simp only [Driver.entry, hl, Option.map_none] at h1
  cases hv : lookup a e.pubs with
  | none => rfl
  | some st => rw [hv] at h1; cases h1

theorem Same.set {a : A} {d e : Driver A} (h : Same a d e) (hd : d.addrs.length = d.sessions.length) (he : e.addrs.length = e.sessions.length) {u v : Nat}
    (hu : d.addrs[u]? = some a) (hv : e.addrs[v]? = some a) (hr : rank a d.addrs u = rank a e.addrs v) (s : Session) :
    Same a { d with sessions := d.sessions.set u s } { e with sessions := e.sessions.set v s } where
  now := h.now
  opts := h.opts
  topics := h.topics
  entry := h.entry
  task := h.task
  key := h.key
  sess := by
    have h1 := h.sess
    rw [ownSessions_eq, ownSessions_eq] at h1 ⊢
    simp only
    rw [own_set_self s hd hu, own_set_self s he hv, h1, hr]
  taken := h.taken

/-- The entry for `a` is replaced (not by a connection). -/
theorem Same.entryTo {a : A} {d e : Driver A} (h : Same a d e) {pd pe : List (A × PState)} {st : Option PState} (hn : ∀ u, st ≠ some (.active u))
    (hd : lookup a pd = st) (he : lookup a pe = st) : Same a { d with pubs := pd } { e with pubs := pe } where
  now := h.now
  opts := h.opts
  topics := h.topics
  entry := by
    simp only [Driver.entry, hd, he]
    cases st with
    | none => rfl
    | some st =>
      cases st with
      | inactive b => rfl
      | active u => exact absurd rfl (hn u)
  task := h.task
  key := h.key
  sess := h.sess
  taken := h.taken

theorem hangUp_active {d : Driver A} {a : A} {u : Nat} {s : Session} (hl : lookup a d.pubs = some (.active u)) (hs : d.sessions[u]? = some s) :
    d.hangUp a = { d with sessions := d.sessions.set u { s with alive := false, armed := false } } := by
  unfold Driver.hangUp
  rw [hl]
  simp only [hs]

theorem hangUp_idle {d : Driver A} {a : A} (hl : ∀ u, lookup a d.pubs ≠ some (.active u)) : d.hangUp a = d := by
  unfold Driver.hangUp
  split
  · rename_i u h; exact absurd h (hl u)
  · rfl

theorem Same.hangUp {a : A} {d e : Driver A} (h : Same a d e) (hd : DInv L D d) (he : DInv L D e) : Same a (d.hangUp a) (e.hangUp a) := by
  cases hl : lookup a d.pubs with
  | none =>
    rw [hangUp_idle (by simp [hl]), hangUp_idle (by simp [h.absent hl])]
    exact h
  | some st =>
    cases st with
    | inactive b =>
      rw [hangUp_idle (by simp [hl]), hangUp_idle (by simp [h.inactive hl])]
      exact h
    | active u =>
      obtain ⟨v, s, k1, k2, k3, k4, k5, k6⟩ := h.active hd he hl
      rw [hangUp_active hl k5, hangUp_active k1 k6]
      exact h.set hd.len he.len k2 k3 k4 _

theorem Same.reset {a : A} {d e : Driver A} (h : Same a d e) (hd : DInv L D d) (he : DInv L D e) : Same a (d.resetPublisher a) (e.resetPublisher a) := by
  unfold Driver.resetPublisher
  have h1 := h.hangUp hd he
  refine h1.entryTo (st := some (.inactive (Backoff.new d.opts.initialBackoff 16))) (by simp) ?_ ?_
  · rw [lookup_insert_self, hangUp_eq]
  · rw [lookup_insert_self, hangUp_eq, h.opts]

theorem Same.took {a : A} {d e : Driver A} (h : Same a d e) {u v : Nat} (hu : d.addrs[u]? = some a) (hv : e.addrs[v]? = some a)
    (hr : rank a d.addrs u = rank a e.addrs v) (t : TopicMsg) {f g : Fate} (hf : decide (f ≠ .undecodable) = decide (g ≠ .undecodable)) (i j : List (InMsg A)) :
    Same a { d with inbox := i, fates := d.fates ++ [(u, t, f)] } { e with inbox := j, fates := e.fates ++ [(v, t, g)] } where
  now := h.now
  opts := h.opts
  topics := h.topics
  entry := h.entry
  task := h.task
  key := h.key
  sess := h.sess
  taken := by
    refine (ownTaken_snoc a { d with inbox := i } u t f).trans (.trans ?_ (ownTaken_snoc a { e with inbox := j } v t g).symm)
    simp only [hu, hv, hr, hf, if_true]
    congr 1
    exact h.taken

theorem Same.connect {a : A} {d e : Driver A} (h : Same a d e) : Same a (d.connect a) (e.connect a) := by
  unfold Driver.connect
  by_cases hk : a ∈ d.keys
  · rw [if_pos hk, if_pos (h.key.1 hk)]; exact h
  · rw [if_neg hk, if_neg (fun x => hk (h.key.2 x))]
    exact ⟨h.now, h.opts, h.topics, h.entry, by simp, by simp, h.sess, h.taken⟩

theorem pollPub_same {a : A} {d d' e : Driver A} {p : Bool} (hd : DInv L D d) (he : DInv L D e) (h : Same a d e) (hp : d.pollPub D a = .ok (d', p)) :
    ∃ e', e.pollPub D a = .ok (e', p) ∧ Same a d' e' := by
  unfold Driver.pollPub at hp ⊢
  cases hl : lookup a d.pubs with
  | none =>
    rw [hl] at hp; cases hp
    rw [h.absent hl]
    exact ⟨e, rfl, h⟩
  | some st =>
    rw [hl] at hp
    cases st with
    | active u =>
      obtain ⟨v, s, k1, k2, k3, k4, k5, k6⟩ := h.active hd he hl
      rw [k1]
      simp only [k5] at hp
      simp only [k6]
      rcases hr : s.driverRecv with ⟨r, s'⟩
      rw [hr] at hp
      have hs := h.set hd.len he.len k2 k3 k4 s'
      match r with
      | some (some t) =>
        simp only at hp ⊢
        cases hx : tryDecompress D t.ctype t.payload with
        | none =>
          rw [hx] at hp; cases hp
          exact ⟨_, rfl, hs.took k2 k3 k4 t rfl _ _⟩
        | some pl =>
          rw [hx] at hp; cases hp
          refine ⟨_, rfl, ?_⟩
          obtain ⟨f, i, hf, h1⟩ := deliver_eq { d with sessions := d.sessions.set u s' } a u t pl
          obtain ⟨g, j, hg, h2⟩ := deliver_eq { e with sessions := e.sessions.set v s' } a v t pl
          rw [h1, h2]
          exact hs.took k2 k3 k4 t (by simp [hf, hg]) _ _
      | some none => cases hp; exact ⟨_, rfl, h.reset hd he⟩
      | none => cases hp; exact ⟨_, rfl, hs⟩
    | inactive b =>
      have hl' := h.inactive hl
      rw [hl']
      simp only at hp ⊢
      cases hb : b.poll d.now with
      | panic => rw [hb] at hp; cases hp
      | ok y =>
        obtain ⟨o, b'⟩ := y
        have hb' : b.poll e.now = .ok (o, b') := by rw [← h.now]; exact hb
        rw [hb']
        rw [hb] at hp
        simp only [R.bind_ok, R.pure_eq] at hp ⊢
        have hu := h.entryTo (st := some (.inactive b')) (by simp)
          (pd := d.pubs.map fun y => if y.1 = a then (a, PState.inactive b') else y)
          (pe := e.pubs.map fun y => if y.1 = a then (a, PState.inactive b') else y)
          (by rw [lookup_update, if_pos rfl, hl]; rfl) (by rw [lookup_update, if_pos rfl, hl']; rfl)
        cases o with
        | pending => cases hp; exact ⟨_, rfl, hu⟩
        | item x => cases hp; exact ⟨_, rfl, hu.connect⟩
        | ended =>
          cases hp
          refine ⟨_, rfl, h.entryTo (st := none) (by simp) ?_ ?_⟩
          · exact lookup_erase_self _ _
          · exact lookup_erase_self _ _

theorem pollPublishers_same {a : A} : ∀ (order : List A) {d d' e : Driver A} {p : Bool}, DInv L D d → DInv L D e → Same a d e →
    d.pollPublishers D order = .ok (d', p) →
    ∃ e' q, e.pollPublishers D (order.filter fun b => decide (b = a)) = .ok (e', q) ∧ (q = true → p = true) ∧ Same a d' e'
  | [], d, d', e, p, _, _, h, hp => by cases hp; exact ⟨e, false, rfl, id, h⟩
  | b :: bs, d, d', e, p, hd, he, h, hp => by
    rw [Driver.pollPublishers] at hp
    cases h1 : d.pollPub D b with
    | panic => rw [h1] at hp; cases hp
    | ok y =>
      obtain ⟨d1, p1⟩ := y
      rw [h1] at hp
      simp only [R.bind_ok] at hp
      cases h2 : d1.pollPublishers D bs with
      | panic => rw [h2] at hp; cases hp
      | ok z =>
        obtain ⟨d2, p2⟩ := z
        rw [h2] at hp
        cases hp
        have hd1 : DInv L D d1 := DInv.steps (pollPub_steps d d1 b p1 h1) hd
        by_cases hb : b = a
        · subst hb
          obtain ⟨e1, k1, k2⟩ := pollPub_same hd he h h1
          have he1 : DInv L D e1 := DInv.steps (pollPub_steps e e1 b p1 k1) he
          obtain ⟨e2, q, k3, k4, k5⟩ := pollPublishers_same bs hd1 he1 k2 h2
          refine ⟨e2, p1 || q, ?_, ?_, k5⟩
          · simp only [List.filter_cons, decide_true, if_true]
            rw [Driver.pollPublishers, k1]
            simp only [R.bind_ok, k3, R.pure_eq]
          · simp only [Bool.or_eq_true]
            exact fun x => x.imp_right k4
        · have k2 := ((pollPub_keep hb hd h1).same).trans h
          obtain ⟨e2, q, k3, k4, k5⟩ := pollPublishers_same bs hd1 he k2 h2
          refine ⟨e2, q, ?_, ?_, k5⟩
          · simp only [List.filter_cons, hb, decide_false, Bool.false_eq_true, if_false]
            exact k3
          · intro x; simp [k4 x]

/-! ### Commands -/

theorem tell_append (c : Cmd) (l l' : List (A × PState)) (d : Driver A) : d.tell c (l ++ l') = (d.tell c l).tell c l' := by
  induction l generalizing d with
  | nil => rfl
  | cons x l ih =>
    obtain ⟨b, st⟩ := x
    cases st with
    | inactive bo => exact ih d
    | active u =>
      simp only [List.cons_append, Driver.tell]
      cases d.sessions[u]? with
      | none => exact ih d
      | some s =>
        simp only
        rcases s.offer c with ⟨r, s'⟩
        cases r <;> exact ih _

theorem tell_keep {a : A} (c : Cmd) : ∀ (l : List (A × PState)) (d : Driver A), DInv L D d → (∀ x ∈ l, x.1 ≠ a) →
    (∀ b u, (b, PState.active u) ∈ l → d.addrs[u]? = some b) → Keep a d (d.tell c l)
  | [], d, _, _, _ => .refl a d
  | (b, .inactive bo) :: l, d, hi, hn, hl => tell_keep c l d hi (fun x hx => hn x (.tail _ hx)) fun b u h => hl b u (.tail _ h)
  | (b, .active u) :: l, d, hi, hn, hl => by
    have hb : b ≠ a := hn _ (.head _)
    have hu : d.addrs[u]? ≠ some a := by rw [hl b u (.head _)]; simp [hb]
    have hn' : ∀ x ∈ l, x.1 ≠ a := fun x hx => hn x (.tail _ hx)
    have hl' : ∀ b u, (b, PState.active u) ∈ l → d.addrs[u]? = some b := fun b u h => hl b u (.tail _ h)
    unfold Driver.tell
    cases hs : d.sessions[u]? with
    | none => exact tell_keep c l d hi hn' hl'
    | some s =>
      simp only
      have h1 := hi.set hs (SUpd.offer (L := L) s c)
      have k1 := Keep.set (a := a) d hu (s.offer c).2
      rcases ho : s.offer c with ⟨r, s'⟩
      rw [ho] at h1 k1
      cases r with
      | closed =>
        have k2 := k1.trans (Keep.reset hb h1)
        exact k2.trans (tell_keep c l _ (h1.reset b) hn' (fun b u h => (by rw [k2.addrs]; exact hl' b u h)))
      | ok => exact k1.trans (tell_keep c l _ h1 hn' hl')
      | full => exact k1.trans (tell_keep c l _ h1 hn' hl')

/-- The command is offered to the publisher at `a` alone. -/
def Driver.tell1 (d : Driver A) (c : Cmd) (a : A) : Driver A :=
  match lookup a d.pubs with
  | some st => d.tell c [(a, st)]
  | none => d

theorem Same.tell1 {a : A} {d e : Driver A} (h : Same a d e) (hd : DInv L D d) (he : DInv L D e) (c : Cmd) : Same a (d.tell1 c a) (e.tell1 c a) := by
  unfold Driver.tell1
  cases hl : lookup a d.pubs with
  | none => rw [h.absent hl]; exact h
  | some st =>
    cases st with
    | inactive b => rw [h.inactive hl]; exact h
    | active u =>
      obtain ⟨v, s, k1, k2, k3, k4, k5, k6⟩ := h.active hd he hl
      rw [k1]
      simp only [Driver.tell, k5, k6]
      have h1 := hd.set k5 (SUpd.offer (L := L) s c)
      have h2 := he.set k6 (SUpd.offer (L := L) s c)
      rcases ho : s.offer c with ⟨r, s'⟩
      rw [ho] at h1 h2
      have h3 := h.set hd.len he.len k2 k3 k4 s'
      cases r with
      | closed => exact h3.reset h1 h2
      | ok => exact h3
      | full => exact h3

theorem tell_tell1 (a : A) (d : Driver A) (hi : DInv L D d) (c : Cmd) : Same a (d.tell c d.pubs) (d.tell1 c a) := by
  have hact : ∀ b u, (b, PState.active u) ∈ d.pubs → d.addrs[u]? = some b := fun b u h => (hi.act b u (lookup_of_mem hi.nodup h)).1
  unfold Driver.tell1
  cases hl : lookup a d.pubs with
  | none =>
    refine (tell_keep c d.pubs d hi ?_ hact).same
    rintro ⟨b, st⟩ hx rfl
    rw [lookup_of_mem hi.nodup hx] at hl; cases hl
  | some st =>
    simp only
    obtain ⟨l1, l2, he⟩ := List.append_of_mem (mem_of_lookup hl)
    have hn := hi.nodup
    rw [he] at hact hn ⊢
    rw [tell_append, show (a, st) :: l2 = [(a, st)] ++ l2 from rfl, tell_append]
    simp only [List.map_append, List.map_cons] at hn
    have hn1 : ∀ x ∈ l1, x.1 ≠ a := by
      intro x hx hxa
      have := (List.nodup_append.1 hn).2.2 x.1 (List.mem_map_of_mem hx) a (by simp)
      exact this hxa
    have hn2 : ∀ x ∈ l2, x.1 ≠ a := by
      intro x hx hxa
      have := (List.nodup_cons.1 (List.nodup_append.1 hn).2.1).1
      exact this (hxa ▸ List.mem_map_of_mem hx)
    have k1 := tell_keep c l1 d hi hn1 (fun b u h => hact b u (List.mem_append_left _ h))
    have i1 := hi.tell c l1
    have k2 := k1.same.tell1 i1 hi c
    unfold Driver.tell1 at k2
    rw [k1.entry, hl] at k2
    simp only at k2
    have i2 := i1.tell c [(a, st)]
    have ha : ((d.tell c l1).tell c [(a, st)]).addrs = d.addrs := by
      rw [← tell_append]
      refine tell_induct (P := fun x => x.addrs = d.addrs) c (fun _ _ _ h _ => h) (fun d' b h => ?_) (l1 ++ [(a, st)]) d rfl
      rw [reset_eq]; exact h
    have k3 := tell_keep (a := a) c l2 _ i2 hn2 (fun b u h => (by rw [ha]; exact hact b u (List.mem_append_right _ (.tail _ h))))
    exact k3.same.trans k2

theorem Same.tell {a : A} {d e : Driver A} (h : Same a d e) (hd : DInv L D d) (he : DInv L D e) (c : Cmd) : Same a (d.tell c d.pubs) (e.tell c e.pubs) :=
  (tell_tell1 a d hd c).trans ((h.tell1 hd he c).trans (tell_tell1 a e he c).symm)

theorem Same.topicsTo {a : A} {d e : Driver A} (h : Same a d e) (ts : List Str) : Same a { d with topics := ts } { e with topics := ts } :=
  ⟨h.now, h.opts, rfl, h.entry, h.task, h.key, h.sess, h.taken⟩

theorem DInv.topicsTo {d : Driver A} (h : DInv L D d) {ts : List Str} (hn : ts.Nodup) : DInv L D { d with topics := ts } :=
  ⟨h.nodup, h.keys, h.tasks, h.tasksKeys, h.free, h.len, h.act, h.alive, h.sess, h.fate, h.fateLt, h.inbox, h.cap, h.via, hn, h.bound⟩

theorem Same.command {a : A} {d e : Driver A} (h : Same a d e) (hd : DInv L D d) (he : DInv L D e) {c : Command A} (hc : ∀ b, c = .connect b ∨ c = .disconnect b → b = a) :
    Same a (d.onCommand c) (e.onCommand c) := by
  cases c with
  | shutdown => exact h
  | subscribe t =>
    simp only [Driver.onCommand, Driver.subscribe]
    rw [← h.topics]
    by_cases ht : t ∈ d.topics
    · rw [if_pos ht, if_pos ht]; exact h
    · rw [if_neg ht, if_neg ht]
      have hn : (d.topics ++ [t]).Nodup := by
        rw [List.nodup_append]
        exact ⟨hd.uniq, by simp, fun x hx y hy hxy => (by simp at hy; subst hy; subst hxy; exact ht hx)⟩
      exact (h.topicsTo (d.topics ++ [t])).tell (hd.topicsTo hn) (he.topicsTo hn) _
  | unsubscribe t =>
    simp only [Driver.onCommand, Driver.unsubscribe]
    rw [← h.topics]
    by_cases ht : t ∈ d.topics
    · rw [if_pos ht, if_pos ht]
      have hn : (d.topics.filter (· ≠ t)).Nodup := hd.uniq.filter _
      exact (h.topicsTo (d.topics.filter (· ≠ t))).tell (hd.topicsTo hn) (he.topicsTo hn) _
    · rw [if_neg ht, if_neg ht]; exact h
  | connect b =>
    have := hc b (.inl rfl); subst this
    simp only [Driver.onCommand]
    cases hl : lookup b d.pubs with
    | none =>
      rw [h.absent hl]
      simp only [Option.isSome_none, Bool.false_eq_true, if_false]
      exact h.connect.reset (hd.connect b (by simp [hl])) (he.connect b (by simp [h.absent hl]))
    | some st =>
      have : (lookup b e.pubs).isSome = true := by
        cases hx : lookup b e.pubs with
        | none => rw [h.symm.absent hx] at hl; cases hl
        | some _ => rfl
      simp only [Option.isSome_some, this, if_true]
      exact h
  | disconnect b =>
    have := hc b (.inr rfl); subst this
    simp only [Driver.onCommand]
    cases hl : lookup b d.pubs with
    | none =>
      rw [h.absent hl]
      simp only [Option.isSome_none, Bool.false_eq_true, if_false]
      exact h
    | some st =>
      have : (lookup b e.pubs).isSome = true := by
        cases hx : lookup b e.pubs with
        | none => rw [h.symm.absent hx] at hl; cases hl
        | some _ => rfl
      simp only [Option.isSome_some, this, if_true]
      have h1 := (h.hangUp hd he).entryTo (st := none) (by simp) (lookup_erase_self b (d.hangUp b).pubs) (lookup_erase_self b (e.hangUp b).pubs)
      exact ⟨h1.now, h1.opts, h1.topics, h1.entry, h1.task, h1.key, h1.sess, h1.taken⟩

theorem command_keep {a b : A} (hb : b ≠ a) {d : Driver A} (hi : DInv L D d) {c : Command A} (hc : c = .connect b ∨ c = .disconnect b) : Keep a d (d.onCommand c) := by
  rcases hc with rfl | rfl
  · simp only [Driver.onCommand]
    cases hl : lookup b d.pubs with
    | some st => exact .refl a d
    | none =>
      simp only [Option.isSome_none, Bool.false_eq_true, if_false]
      have k : Keep a d (d.connect b) := by
        unfold Driver.connect
        split
        · exact .refl a d
        · exact ⟨rfl, rfl, rfl, rfl, rfl, by simp [Ne.symm hb], by simp [Ne.symm hb], rfl, fun _ _ => rfl, rfl⟩
      exact k.trans (Keep.reset hb (hi.connect b (by simp [hl])))
  · simp only [Driver.onCommand]
    split
    · have k := Keep.reset hb hi
      rw [reset_eq] at k
      rw [hangUp_eq]
      exact ⟨rfl, rfl, rfl, rfl, lookup_erase_ne (Ne.symm hb) _, .rfl, .rfl, k.len, k.sess, rfl⟩
    · exact .refl a d

/-! ### Connection attempts -/

theorem ownTaken_addrs {a : A} {d : Driver A} (hf : ∀ x ∈ d.fates, x.1 < d.addrs.length) (b : A) : ownTaken a { d with addrs := d.addrs ++ [b] } = ownTaken a d := by
  unfold ownTaken
  simp only
  generalize d.fates = fs at hf ⊢
  induction fs with
  | nil => rfl
  | cons x fs ih =>
    have hx := hf x (.head _)
    simp only [List.filterMap_cons]
    rw [ih fun y hy => hf y (.tail _ hy), List.getElem?_append_left hx, rank_append (Nat.le_of_lt hx)]

theorem entry_addrs {a : A} {d : Driver A} (hi : DInv L D d) (b : A) (ss : List Session) : Driver.entry a { d with addrs := d.addrs ++ [b], sessions := ss } = d.entry a := by
  unfold Driver.entry
  simp only
  cases hl : lookup a d.pubs with
  | none => rfl
  | some st =>
    cases st with
    | inactive bo => rfl
    | active u =>
      simp only [Option.map_some, PState.renum]
      rw [rank_append (Nat.le_of_lt (List.getElem?_eq_some_iff.1 (hi.act a u hl).1).1)]

theorem onConnection_other {a b : A} (hb : b ≠ a) {d : Driver A} (hi : DInv L D d) (order : List Str) (via : HsEnv) (input : List ReadAns) :
    Same a (d.onConnection order b via input) d := by
  unfold Driver.onConnection
  split
  · exact .refl a d
  · refine ⟨rfl, rfl, rfl, ?_, .rfl, .rfl, ?_, ?_⟩
    · refine Eq.trans ?_ (entry_addrs hi b d.sessions)
      simp only [Driver.entry]
      rw [lookup_insert_ne (Ne.symm hb)]
    · exact own_snoc_ne hb hi.len _
    · exact ownTaken_addrs (fun x hx => (by rw [hi.len]; exact hi.fateLt x hx)) b

theorem Same.started {a : A} {d e : Driver A} (h : Same a d e) (hd : DInv L D d) (he : DInv L D e) {s s' : Session} (hs : s = s') (st st' : List (A × Nat)) :
    Same a { d with sessions := d.sessions ++ [s], addrs := d.addrs ++ [a], pubs := insert a (.active d.sessions.length) d.pubs, stats := st }
      { e with sessions := e.sessions ++ [s'], addrs := e.addrs ++ [a], pubs := insert a (.active e.sessions.length) e.pubs, stats := st' } where
  now := h.now
  opts := h.opts
  topics := h.topics
  entry := by
    simp only [Driver.entry, lookup_insert_self, Option.map_some, PState.renum]
    rw [← hd.len, ← he.len, rank_append Nat.le.refl, rank_append Nat.le.refl]
    simp only [rank, List.take_length]
    have h1 := congrArg List.length h.sess
    rw [ownSessions_eq, ownSessions_eq, own_length hd.len, own_length he.len] at h1
    rw [h1]
  task := h.task
  key := h.key
  sess := by
    have h1 := h.sess
    rw [ownSessions_eq, ownSessions_eq] at h1 ⊢
    simp only
    rw [own_snoc_self hd.len, own_snoc_self he.len, h1, hs]
  taken := (ownTaken_addrs (fun x hx => (by rw [hd.len]; exact hd.fateLt x hx)) a).trans
    (h.taken.trans (ownTaken_addrs (fun x hx => (by rw [he.len]; exact he.fateLt x hx)) a).symm)

theorem onConnection_self {a : A} {d e : Driver A} (h : Same a d e) (hd : DInv L D d) (he : DInv L D e) (order : List Str) (via : HsEnv) (input : List ReadAns) :
    Same a (d.onConnection order a via input) (e.onConnection order a via input) := by
  cases hl : lookup a d.pubs with
  | some st =>
    cases st with
    | active u =>
      obtain ⟨v, s, k1, -⟩ := h.active hd he hl
      unfold Driver.onConnection
      rw [hl, k1]
      exact h
    | inactive b =>
      unfold Driver.onConnection
      rw [hl, h.inactive hl]
      exact h.started hd he (by rw [h.topics, h.opts]) _ _
  | none =>
    unfold Driver.onConnection
    rw [hl, h.absent hl]
    exact h.started hd he (by rw [h.topics, h.opts]) _ _

theorem mem_eraseIdx_ne {l : List A} {i : Nat} {a b : A} (hi : l[i]? = some b) (hb : b ≠ a) : a ∈ l.eraseIdx i ↔ a ∈ l := by
  rw [List.mem_eraseIdx_iff_getElem?, List.mem_iff_getElem?]
  constructor
  · rintro ⟨j, -, h⟩; exact ⟨j, h⟩
  · rintro ⟨j, h⟩
    refine ⟨j, ?_, h⟩
    rintro rfl
    rw [hi] at h; cases h; exact hb rfl

theorem Same.unkey {a : A} {d e : Driver A} (h : Same a d e) {i j : Nat} (hd : DInv L D d) (he : DInv L D e) (hi : d.tasks[i]? = some a) (hj : e.tasks[j]? = some a) :
    Same a { d with tasks := d.tasks.eraseIdx i, keys := d.keys.filter (· ≠ a) } { e with tasks := e.tasks.eraseIdx j, keys := e.keys.filter (· ≠ a) } :=
  ⟨h.now, h.opts, h.topics, h.entry, by simp [not_mem_eraseIdx hd.tasks hi, not_mem_eraseIdx he.tasks hj], by simp, h.sess, h.taken⟩

theorem join_self {a : A} {d e : Driver A} (h : Same a d e) (hd : DInv L D d) (he : DInv L D e) {i j : Nat} (hi : d.tasks[i]? = some a) (hj : e.tasks[j]? = some a)
    (order order' : List A) (ts : List Str) (out : TaskOut) :
    Same a (d.joinStep { order, topicOrder := ts, join := some (i, out) }).1 (e.joinStep { order := order', topicOrder := ts, join := some (j, out) }).1 := by
  have ho : taskResult e.opts.token out = taskResult d.opts.token out := by rw [h.opts]
  simp only [Driver.joinStep, hi, hj, ho]
  have h1 := h.unkey hd he hi hj
  match hr : taskResult d.opts.token out with
  | .panic =>
    simp only
    exact ⟨h1.now, h1.opts, h1.topics, h1.entry, h1.task, h.key, h1.sess, h1.taken⟩
  | .ok none => exact h
  | .ok (some none) => exact h1
  | .ok (some (some (via, input))) => exact onConnection_self h1 (hd.joined hi) (he.joined hj) ts via input

theorem join_other {a b : A} (hb : b ≠ a) {d : Driver A} (hd : DInv L D d) {i : Nat} (hi : d.tasks[i]? = some b) (order : List A) (ts : List Str) (out : TaskOut) :
    Same a (d.joinStep { order, topicOrder := ts, join := some (i, out) }).1 d := by
  simp only [Driver.joinStep, hi]
  have hk : a ∈ d.keys.filter (· ≠ b) ↔ a ∈ d.keys := by simp [Ne.symm hb]
  match hr : taskResult d.opts.token out with
  | .panic => exact ⟨rfl, rfl, rfl, rfl, mem_eraseIdx_ne hi hb, .rfl, rfl, rfl⟩
  | .ok none => exact .refl a d
  | .ok (some none) => exact ⟨rfl, rfl, rfl, rfl, mem_eraseIdx_ne hi hb, hk, rfl, rfl⟩
  | .ok (some (some (via, input))) =>
    refine (onConnection_other hb (hd.joined hi) ts via input).trans ?_
    exact ⟨rfl, rfl, rfl, rfl, mem_eraseIdx_ne hi hb, hk, rfl, rfl⟩

end MsgRs.Sub
