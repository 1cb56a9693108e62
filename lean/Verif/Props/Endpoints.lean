import Verif.Spec.Endpoints
/-!
# C63, C64, C95, C96 — binding, dialling and accepting, over whole histories
-/
namespace MsgRs.Props
open MsgRs Transport Spec

section
variable {A ρ : Type}

theorem tcpFuture_eq : (fun (_ : A) (r : TcpIn A) => r.fut) = fun _ r => tcpFuture r := by
  funext _ r
  cases r with
  | conn u p n => cases n <;> rfl
  | err => rfl

theorem ipcFuture_eq : (fun (a : A) (r : IpcIn) => r.fut a) = ipcFuture := by
  funext a r
  cases r <;> rfl

theorem quicFuture_eq : (QuicIn.fut : QuicIn A → _) = quicFuture := by
  funext r
  cases r with
  | conn u p w n => cases n <;> rfl
  | closed => rfl

theorem serves_nil (fut : A → ρ → Fut (Stream A) Err) : Serves fut ([] : List (BindEv A ρ)) := by
  intro b e a h
  cases b <;> cases h

theorem serves_snoc {fut : A → ρ → Fut (Stream A) Err} {evs : List (BindEv A ρ)} {e : BindEv A ρ}
    (h : Serves fut evs) (he : ServeStep fut evs e) : Serves fut (evs ++ [e]) := by
  intro b x a hx
  rcases List.eq_nil_or_concat a with rfl | ⟨a', y, rfl⟩
  · obtain ⟨h1, h2⟩ := List.append_inj' hx rfl
    cases h2; subst h1; exact he
  · have : evs ++ [e] = (b ++ x :: a') ++ [y] := by rw [hx]; simp
    obtain ⟨h1, _⟩ := List.append_inj' this rfl
    exact h b x a' h1

/-- What holds of a transport with one listener after any history: the address, what waits. -/
structure SrvOk (fut : A → ρ → Fut (Stream A) Err) (addr : Option A) (queue : List ρ) (evs : List (BindEv A ρ)) : Prop where
  serves : Serves fut evs
  addr_eq : addr = lastBound evs
  queue_eq : addr ≠ none → queue = (arrivedSince evs).drop (tookSince evs).length
  le : addr ≠ none → (tookSince evs).length ≤ (arrivedSince evs).length

theorem SrvOk.queue_length {fut : A → ρ → Fut (Stream A) Err} {addr : Option A} {queue : List ρ}
    {evs : List (BindEv A ρ)} (h : SrvOk fut addr queue evs) (ha : addr ≠ none) :
    (arrivedSince evs).length = (tookSince evs).length + queue.length := by
  have h1 := congrArg List.length (h.queue_eq ha)
  have h2 := h.le ha
  rw [List.length_drop] at h1
  omega

theorem SrvOk.head {fut : A → ρ → Fut (Stream A) Err} {addr : Option A} {r : ρ} {q : List ρ}
    {evs : List (BindEv A ρ)} (h : SrvOk fut addr (r :: q) evs) (ha : addr ≠ none) :
    (arrivedSince evs)[(tookSince evs).length]? = some r := by
  have h1 : ((arrivedSince evs).drop (tookSince evs).length)[0]? = some r := by rw [← h.queue_eq ha]; rfl
  rwa [List.getElem?_drop, Nat.add_zero] at h1

theorem SrvOk.bound {fut : A → ρ → Fut (Stream A) Err} {addr : Option A} {queue : List ρ}
    {evs : List (BindEv A ρ)} (h : SrvOk fut addr queue evs) (a : A) :
    SrvOk fut (some a) [] (evs ++ [.bound a]) := by
  refine ⟨serves_snoc h.serves trivial, ?_, fun _ => ?_, fun _ => ?_⟩ <;>
    simp [lastBound, arrivedSince, tookSince, List.foldl_append]

theorem SrvOk.failed {fut : A → ρ → Fut (Stream A) Err} {addr : Option A} {queue : List ρ}
    {evs : List (BindEv A ρ)} (h : SrvOk fut addr queue evs) : SrvOk fut addr queue (evs ++ [.bindFailed]) := by
  obtain ⟨h1, h2, h3, h4⟩ := h
  refine ⟨serves_snoc h1 trivial, ?_, fun ha => ?_, fun ha => ?_⟩ <;>
    simp only [lastBound, arrivedSince, tookSince, List.foldl_append, List.foldl_cons, List.foldl_nil]
  · exact h2
  · exact h3 ha
  · exact h4 ha

theorem SrvOk.arrived {fut : A → ρ → Fut (Stream A) Err} {addr : Option A} {queue : List ρ}
    {evs : List (BindEv A ρ)} (h : SrvOk fut addr queue evs) (ha : addr ≠ none) (r : ρ) :
    SrvOk fut addr (queue ++ [r]) (evs ++ [.arrived r]) := by
  obtain ⟨h1, h2, h3, h4⟩ := h
  have e1 : arrivedSince (evs ++ [.arrived r]) = arrivedSince evs ++ [r] := by
    simp [arrivedSince, List.foldl_append]
  have e2 : tookSince (evs ++ [.arrived r]) = tookSince evs := by simp [tookSince, List.foldl_append]
  refine ⟨serves_snoc h1 ?_, ?_, fun _ => ?_, fun _ => ?_⟩
  · show lastBound evs ≠ none
    rw [← h2]; exact ha
  · rw [h2]; simp [lastBound, List.foldl_append]
  · rw [e1, e2, List.drop_append_of_le_length (h4 ha), ← h3 ha]
  · rw [e1, e2]; have := h4 ha; simp only [List.length_append]; omega

theorem SrvOk.pending {fut : A → ρ → Fut (Stream A) Err} {addr : Option A}
    {evs : List (BindEv A ρ)} (h : SrvOk fut addr [] evs) (ha : addr ≠ none) :
    SrvOk fut addr [] (evs ++ [.pending]) := by
  have hl := h.queue_length ha
  obtain ⟨h1, h2, h3, h4⟩ := h
  refine ⟨serves_snoc h1 ⟨by rw [← h2]; exact ha, by simpa using hl.symm⟩, ?_, fun ha => ?_, fun ha => ?_⟩ <;>
    simp only [lastBound, arrivedSince, tookSince, List.foldl_append, List.foldl_cons, List.foldl_nil]
  · exact h2
  · exact h3 ha
  · exact h4 ha

theorem SrvOk.took {fut : A → ρ → Fut (Stream A) Err} {a : A} {r : ρ} {q : List ρ}
    {evs : List (BindEv A ρ)} (h : SrvOk fut (some a) (r :: q) evs) :
    SrvOk fut (some a) q (evs ++ [.took (fut a r)]) := by
  have hh := h.head (by simp)
  have hl := h.queue_length (by simp)
  obtain ⟨h1, h2, h3, h4⟩ := h
  have h3 := h3 (by simp)
  have e1 : arrivedSince (evs ++ [.took (fut a r)]) = arrivedSince evs := by simp [arrivedSince, List.foldl_append]
  have e2 : tookSince (evs ++ [.took (fut a r)]) = tookSince evs ++ [fut a r] := by simp [tookSince, List.foldl_append]
  refine ⟨serves_snoc h1 ?_, ?_, fun _ => ?_, fun _ => ?_⟩
  · show (match lastBound evs with
      | none => _
      | some a => _)
    rw [← h2]; exact ⟨r, hh, rfl⟩
  · rw [h2]; simp [lastBound, List.foldl_append]
  · rw [e1, e2, List.length_append, List.length_singleton, ← List.drop_drop, ← h3]
    rfl
  · rw [e1, e2]; rw [List.length_cons] at hl; rw [List.length_append, List.length_singleton]; omega

theorem SrvOk.unbound {fut : A → ρ → Fut (Stream A) Err} {queue : List ρ}
    {evs : List (BindEv A ρ)} (h : SrvOk fut none queue evs) :
    SrvOk fut none queue (evs ++ [.took { waits := 0, res := .error .notConnected }]) := by
  obtain ⟨h1, h2, h3, h4⟩ := h
  refine ⟨serves_snoc h1 ?_, ?_, fun ha => absurd rfl ha, fun ha => absurd rfl ha⟩
  · show (match lastBound evs with
      | none => _
      | some a => _)
    rw [← h2]
  · rw [h2]; simp [lastBound, List.foldl_append]

/-! ## TCP -/

theorem tcp_call {t : Tcp A} {evs} (h : SrvOk (fun _ r => r.fut) t.addr t.queue evs) (c : TcpCall A) :
    SrvOk (fun _ r => r.fut) (t.call c).2.addr (t.call c).2.queue (evs ++ (t.call c).1.toList) := by
  cases c with
  | bind res =>
    cases res with
    | none => exact h.failed
    | some a => exact h.bound a
  | arrive r =>
    unfold Tcp.call
    rcases ha : t.addr with _ | a
    · simp only [Option.isSome_none, Bool.false_eq_true, if_false, Option.toList_none, List.append_nil]
      exact ha ▸ h
    · simp only [Option.isSome_some, if_true, Option.toList_some]
      have := h.arrived (by simp [ha]) r
      rw [ha] at this
      exact this
  | pollAccept =>
    obtain ⟨addr, queue⟩ := t
    cases addr with
    | none => exact h.unbound
    | some a =>
      cases queue with
      | nil => exact h.pending (by simp)
      | cons r q => exact h.took

theorem tcp_hist {t : Tcp A} {evs} (h : SrvOk (fun _ r => r.fut) t.addr t.queue evs) (cs : List (TcpCall A)) :
    SrvOk (fun _ r => r.fut) (t.hist cs).2.addr (t.hist cs).2.queue (evs ++ (t.hist cs).1) := by
  induction cs generalizing t evs with
  | nil => simpa [Tcp.hist] using h
  | cons c cs ih =>
    have := ih (tcp_call h c)
    rw [List.append_assoc] at this
    exact this

theorem srv_new (fut : A → ρ → Fut (Stream A) Err) : SrvOk fut none ([] : List ρ) [] :=
  ⟨serves_nil fut, rfl, fun h => absurd rfl h, fun h => absurd rfl h⟩

/-- C95: a TCP transport, after any history of binds (successful or not), arrivals and accepts: `local_addr` reports the
last successful bind; `accept` fails at once while there was none, and from then on hands out the connections that arrived
at the listener of the last successful bind, each once, in order, waiting only when there is none. -/
theorem C95_tcp (cs : List (TcpCall A)) :
    (({} : Tcp A).hist cs).2.addr = lastBound (({} : Tcp A).hist cs).1 ∧
    Serves (fun _ r => tcpFuture r) (({} : Tcp A).hist cs).1 := by
  rw [← tcpFuture_eq]
  have h : SrvOk (fun _ r => r.fut) (({} : Tcp A).hist cs).2.addr (({} : Tcp A).hist cs).2.queue
      ([] ++ (({} : Tcp A).hist cs).1) := tcp_hist (t := {}) (srv_new _) cs
  rw [List.nil_append] at h
  exact ⟨h.addr_eq, h.serves⟩

/-! ## IPC -/

section
variable {P : Type} [DecidableEq P]

theorem ipc_bind_cases (t : Ipc P) (a : P) (rm can : Bool) :
    ((t.bind a rm can).1 = true ∧ (t.bind a rm can).2.path = some a ∧ (t.bind a rm can).2.queue = []) ∨
    ((t.bind a rm can).1 = false ∧ (t.bind a rm can).2.path = t.path ∧ (t.bind a rm can).2.queue = t.queue) := by
  unfold Ipc.bind Ipc.create
  rcases t.fs a with _ | _ | _ | _ | _ <;> cases rm <;> cases can <;> simp

theorem ipc_call {t : Ipc P} {evs} (h : SrvOk (fun a r => r.fut a) t.path t.queue evs) (c : IpcCall P) :
    SrvOk (fun a r => r.fut a) (t.call c).2.path (t.call c).2.queue (evs ++ (t.call c).1.toList) := by
  cases c with
  | bind a rm can =>
    simp only [Ipc.call]
    rcases hb : t.bind a rm can with ⟨b, t'⟩
    have := ipc_bind_cases t a rm can
    rw [hb] at this
    rcases this with ⟨h1, h2, h3⟩ | ⟨h1, h2, h3⟩ <;> simp only at h1 h2 h3 <;> subst h1
    · simp only [h2, h3]; exact h.bound a
    · simp only [h2, h3]; exact h.failed
  | arrive r =>
    unfold Ipc.call
    rcases ha : t.path with _ | a
    · simp only [Option.isSome_none, Bool.false_eq_true, if_false, Option.toList_none, List.append_nil]
      exact ha ▸ h
    · simp only [Option.isSome_some, if_true, Option.toList_some]
      have := h.arrived (by simp [ha]) r
      rw [ha] at this
      exact this
  | pollAccept =>
    obtain ⟨fs, path, queue⟩ := t
    cases path with
    | none => exact h.unbound
    | some a =>
      cases queue with
      | nil => exact h.pending (by simp)
      | cons r q => exact h.took

theorem ipc_hist {t : Ipc P} {evs} (h : SrvOk (fun a r => r.fut a) t.path t.queue evs) (cs : List (IpcCall P)) :
    SrvOk (fun a r => r.fut a) (t.hist cs).2.path (t.hist cs).2.queue (evs ++ (t.hist cs).1) := by
  induction cs generalizing t evs with
  | nil => simpa [Ipc.hist] using h
  | cons c cs ih =>
    have := ih (ipc_call h c)
    rw [List.append_assoc] at this
    exact this

/-- C95: an IPC transport likewise; the peer address of a connection is the path of the listener it arrived at. -/
theorem C95_ipc (fs : P → Option FileKind) (cs : List (IpcCall P)) :
    (({ fs } : Ipc P).hist cs).2.path = lastBound (({ fs } : Ipc P).hist cs).1 ∧
    Serves ipcFuture (({ fs } : Ipc P).hist cs).1 := by
  rw [← ipcFuture_eq]
  have h : SrvOk (fun a r => r.fut a) (({ fs } : Ipc P).hist cs).2.path (({ fs } : Ipc P).hist cs).2.queue
      ([] ++ (({ fs } : Ipc P).hist cs).1) := ipc_hist (t := { fs }) (srv_new _) cs
  rw [List.nil_append] at h
  exact ⟨h.addr_eq, h.serves⟩

/-- C64: binding an IPC path changes nothing in the file system but that path; on success there is a socket at the path and
`local_addr` reports it; a failed bind leaves the transport as it was; directories (and dangling links) are left alone. The
last line says when binding succeeds. Missing: files that are not stale sockets (`C64_ipc_bind_deletes_refuted`). -/
theorem C64_ipc_bind_partial (t : Ipc P) (a : P) (rm can : Bool) :
    (∀ p, p ≠ a → (t.bind a rm can).2.fs p = t.fs p) ∧
    ((t.bind a rm can).1 = true → (t.bind a rm can).2.fs a = some .socket ∧ (t.bind a rm can).2.path = some a) ∧
    ((t.bind a rm can).1 = false → (t.bind a rm can).2.path = t.path) ∧
    (t.fs a = some .directory ∨ t.fs a = some .dangling → (t.bind a rm can).2.fs a = t.fs a) ∧
    ((t.bind a rm can).1 = true ↔
      can = true ∧ (t.fs a = none ∨ rm = true ∧ t.fs a ≠ some .directory ∧ t.fs a ≠ some .dangling)) := by
  unfold Ipc.bind Ipc.create
  rcases h : t.fs a with _ | _ | _ | _ | _ <;> cases rm <;> cases can <;> simp +contextual [h]

/-- C64, the surprise: whatever regular file is at the path is deleted if it can be, also when binding then fails. -/
theorem C64_ipc_bind_deletes_refuted (t : Ipc P) (a : P) (can : Bool)
    (h : t.fs a = some .regular) : (t.bind a true can).2.fs a ≠ some .regular := by
  unfold Ipc.bind Ipc.create
  rw [h]
  cases can <;> simp

theorem ipc_call_fs (t : Ipc P) (c : IpcCall P) (p : P) :
    ((∀ rm can, c ≠ .bind p rm can) → (t.call c).2.fs p = t.fs p) ∧
    ((t.fs p = some .directory ∨ t.fs p = some .dangling) → (t.call c).2.fs p = t.fs p) ∧
    ((t.call c).2.fs p = t.fs p ∨ (t.call c).2.fs p = none ∨ (t.call c).2.fs p = some .socket) := by
  cases c with
  | bind a rm can =>
    have hc : (t.call (.bind a rm can)).2 = (t.bind a rm can).2 := by
      simp only [Ipc.call]
      rcases t.bind a rm can with ⟨_ | _, t'⟩ <;> rfl
    rw [hc]
    have hb := C64_ipc_bind_partial t a rm can
    by_cases hp : p = a
    · subst hp
      refine ⟨fun h => absurd rfl (h rm can), hb.2.2.2.1, ?_⟩
      unfold Ipc.bind Ipc.create
      rcases h : t.fs p with _ | _ | _ | _ | _ <;> cases rm <;> cases can <;> simp [h]
    · exact ⟨fun _ => hb.1 p hp, fun _ => hb.1 p hp, .inl (hb.1 p hp)⟩
  | arrive r =>
    have hc : (t.call (.arrive r)).2.fs = t.fs := by simp only [Ipc.call]; split <;> rfl
    rw [hc]; exact ⟨fun _ => rfl, fun _ => rfl, .inl rfl⟩
  | pollAccept =>
    have hc : (t.call .pollAccept).2.fs = t.fs := by
      simp only [Ipc.call, Ipc.pollAccept]
      cases t.path <;> cases t.queue <;> rfl
    rw [hc]; exact ⟨fun _ => rfl, fun _ => rfl, .inl rfl⟩

/-- C64 over a history of binds and accepts: a path that was never given to `bind` is untouched; a directory or dangling
link is untouched; and at every path there is what was there before, nothing, or a socket. Missing as above. -/
theorem C64_ipc_history_partial (t : Ipc P) (cs : List (IpcCall P)) (p : P) :
    ((∀ rm can, IpcCall.bind p rm can ∉ cs) → (t.hist cs).2.fs p = t.fs p) ∧
    ((t.fs p = some .directory ∨ t.fs p = some .dangling) → (t.hist cs).2.fs p = t.fs p) ∧
    ((t.hist cs).2.fs p = t.fs p ∨ (t.hist cs).2.fs p = none ∨ (t.hist cs).2.fs p = some .socket) := by
  induction cs generalizing t with
  | nil => exact ⟨fun _ => rfl, fun _ => rfl, .inl rfl⟩
  | cons c cs ih =>
    obtain ⟨c1, c2, c3⟩ := ipc_call_fs t c p
    obtain ⟨h1, h2, h3⟩ := ih (t.call c).2
    show (_ → ((t.call c).2.hist cs).2.fs p = _) ∧ (_ → ((t.call c).2.hist cs).2.fs p = _) ∧
      (((t.call c).2.hist cs).2.fs p = _ ∨ ((t.call c).2.hist cs).2.fs p = _ ∨ ((t.call c).2.hist cs).2.fs p = _)
    refine ⟨fun h => ?_, fun h => ?_, ?_⟩
    · rw [h1 fun rm can hm => h rm can (List.mem_cons_of_mem _ hm)]
      exact c1 fun rm can hc => h rm can (hc ▸ List.mem_cons_self ..)
    · have e := c2 h
      rw [h2 (by rw [e]; exact h), e]
    · rcases h3 with h3 | h3
      · rw [h3]; exact c3
      · exact .inr h3

/-- C64: where `local_addr` says the transport is, there is a socket — as long as no later bind to that very path failed
(here: as long as sockets can be created there). -/
theorem C64_ipc_socket_there (fs : P → Option FileKind) (cs : List (IpcCall P)) (p : P)
    (hcan : ∀ rm can, IpcCall.bind p rm can ∈ cs → can = true)
    (hp : (({ fs } : Ipc P).hist cs).2.path = some p) : (({ fs } : Ipc P).hist cs).2.fs p = some .socket := by
  have key : ∀ (cs : List (IpcCall P)) (t : Ipc P), (∀ rm can, IpcCall.bind p rm can ∈ cs → can = true) →
      (t.path = some p → t.fs p = some .socket) → (t.hist cs).2.path = some p → (t.hist cs).2.fs p = some .socket := by
    intro cs
    induction cs with
    | nil => intro t _ h; exact h
    | cons c cs ih =>
      intro t hc h
      refine ih (t.call c).2 (fun rm can hm => hc rm can (List.mem_cons_of_mem _ hm)) ?_
      cases c with
      | bind a rm can =>
        have e : (t.call (.bind a rm can)).2 = (t.bind a rm can).2 := by
          simp only [Ipc.call]
          rcases t.bind a rm can with ⟨_ | _, t'⟩ <;> rfl
        rw [e]
        have hb := C64_ipc_bind_partial t a rm can
        by_cases hpa : p = a
        · subst hpa
          have hcan := hc rm can (List.mem_cons_self ..)
          subst hcan
          intro hpath
          cases hr : (t.bind p rm true).1 with
          | true => exact (hb.2.1 hr).1
          | false =>
            rw [hb.2.2.1 hr] at hpath
            have hs := h hpath
            cases rm with
            | true =>
              have : (t.bind p true true).1 = true := hb.2.2.2.2.2 ⟨rfl, .inr ⟨rfl, by rw [hs]; simp, by rw [hs]; simp⟩⟩
              rw [this] at hr; cases hr
            | false => simp [Ipc.bind, hs]
        · rw [hb.1 p hpa]
          intro hpath
          cases hr : (t.bind a rm can).1 with
          | true => rw [(hb.2.1 hr).2] at hpath; exact absurd (Option.some.inj hpath).symm hpa
          | false => rw [hb.2.2.1 hr] at hpath; exact h hpath
      | arrive r =>
        have e : (t.call (.arrive r)).2.fs = t.fs ∧ (t.call (.arrive r)).2.path = t.path := by
          simp only [Ipc.call]; split <;> exact ⟨rfl, rfl⟩
        rw [e.1, e.2]; exact h
      | pollAccept =>
        have e : (t.call .pollAccept).2.fs = t.fs ∧ (t.call .pollAccept).2.path = t.path := by
          simp only [Ipc.call, Ipc.pollAccept]
          cases hq : t.path <;> cases t.queue <;> simp [hq]
        rw [e.1, e.2]; exact h
  exact key cs _ hcan (fun h => by cases h) hp

/-- A history with a failed bind, two good ones, and connections at both listeners: the one still waiting at the first
listener is gone, its file stays, and the rest is handed out with the second path. -/
example :
    let fs : Nat → Option FileKind := fun p => if p = 3 then some .directory else if p = 2 then some .regular else none
    let cs : List (IpcCall Nat) := [.pollAccept, .bind 1 true true, .arrive (.conn 7), .arrive (.conn 8), .pollAccept,
      .bind 3 true true, .bind 2 true true, .pollAccept, .arrive (.conn 9), .pollAccept]
    let t := (({ fs } : Ipc Nat).hist cs)
    t.2.path = some 2 ∧ t.2.fs 1 = some .socket ∧ t.2.fs 2 = some .socket ∧ t.2.fs 3 = some .directory ∧ t.2.queue = [] ∧
    arrivedSince t.1 = [.conn 9] ∧ (tookSince t.1).length = 1 ∧ t.1.length = 10 := by decide +kernel

end

/-! ## QUIC -/

theorem here_snoc (evs : List (QuicEv A)) (x : QuicEv A) :
    here (evs ++ [x]) = (match x with
      | .bound e a => some (e, a)
      | .dialed e (some a) _ => if (here evs).isNone then some (e, a) else here evs
      | _ => here evs) := by
  simp only [here, List.foldl_append, List.foldl_cons, List.foldl_nil]
  cases x <;> rfl

theorem arrivedAt_append (e : Nat) (xs ys : List (QuicEv A)) :
    arrivedAt e (xs ++ ys) = arrivedAt e xs ++ arrivedAt e ys := by
  induction xs with
  | nil => rfl
  | cons x xs ih =>
    cases x <;> simp only [List.cons_append, arrivedAt, ih]
    split <;> simp

theorem handedOut_append (xs ys : List (QuicEv A)) : handedOut (xs ++ ys) = handedOut xs ++ handedOut ys := by
  induction xs with
  | nil => rfl
  | cons x xs ih => cases x <;> simp [handedOut, ih]

theorem before_snoc (evs : List (QuicEv A)) (x : QuicEv A) :
    (sinceAccept evs = [] → beforeAccept (evs ++ [x]) = evs ++ (if isAccept x then [] else [x]) ∧
      sinceAccept (evs ++ [x]) = if isAccept x then [x] else []) ∧
    (sinceAccept evs ≠ [] → beforeAccept (evs ++ [x]) = beforeAccept evs ∧ sinceAccept (evs ++ [x]) = sinceAccept evs ++ [x]) := by
  unfold beforeAccept sinceAccept
  induction evs with
  | nil =>
    refine ⟨fun _ => ?_, fun h => absurd rfl h⟩
    cases h : isAccept x <;> simp [h]
  | cons y ys ih =>
    cases h : isAccept y
    · simp only [List.cons_append, List.takeWhile_cons, List.dropWhile_cons, h, Bool.not_false, if_true]
      exact ⟨fun h0 => ⟨by rw [(ih.1 h0).1], (ih.1 h0).2⟩, fun h0 => ⟨by rw [(ih.2 h0).1], (ih.2 h0).2⟩⟩
    · simp [h]

theorem before_all (evs : List (QuicEv A)) (h : sinceAccept evs = []) : beforeAccept evs = evs := by
  have := List.takeWhile_append_dropWhile (p := fun x => !isAccept x) (l := evs)
  unfold beforeAccept
  unfold sinceAccept at h
  rw [h, List.append_nil] at this
  exact this

/-- What holds of a QUIC transport after any history. -/
structure QOk (q : Quic A) (evs : List (QuicEv A)) : Prop where
  endpoint : q.endpoint = (here evs).map (·.1)
  made : ∀ e a, here evs = some (e, a) → (q.made[e]?).map (·.1) = some a
  incoming : q.incoming = if sinceAccept evs = [] then none else (here (beforeAccept evs)).map (·.1)
  live : sinceAccept evs ≠ [] → ∃ i a, here (beforeAccept evs) = some (i, a) ∧ i < q.made.length
  others : ∀ e, q.incoming ≠ some e → q.queues e = arrivedAt e evs
  mine : ∀ e, q.incoming = some e → q.queues e = (arrivedAt e evs).drop (handedOut evs).length ∧
    handedOut evs = ((arrivedAt e evs).take (handedOut evs).length).map QuicIn.fut
  none_out : q.incoming = none → handedOut evs = []
  fresh : ∀ i, q.incoming = some i → ∀ e a, QuicEv.bound e a ∈ sinceAccept evs → e ≠ i
  moved : (∃ x ∈ sinceAccept evs, isBound x = true) → ∃ e a, here evs = some (e, a) ∧ QuicEv.bound e a ∈ sinceAccept evs
  stay : (∀ x ∈ sinceAccept evs, isBound x = false) → sinceAccept evs ≠ [] → here evs = here (beforeAccept evs)

theorem q_new : QOk ({} : Quic A) [] := by
  constructor <;> simp [here, sinceAccept, arrivedAt, handedOut]

/-- Events that open nothing and accept nothing. -/
theorem QOk.idle {q : Quic A} {evs : List (QuicEv A)} (h : QOk q evs) {x : QuicEv A} (h1 : here (evs ++ [x]) = here evs)
    (h2 : ∀ e, arrivedAt e [x] = []) (h3 : handedOut [x] = []) (h4 : isAccept x = false) (h5 : isBound x = false) :
    QOk q (evs ++ [x]) := by
  obtain ⟨hn, hs⟩ := before_snoc evs x
  by_cases h0 : sinceAccept evs = []
  · obtain ⟨b1, b2⟩ := hn h0
    rw [h4] at b1 b2
    simp only [Bool.false_eq_true, if_false] at b1 b2
    have hi : q.incoming = none := by rw [h.incoming, if_pos h0]
    refine ⟨by rw [h1]; exact h.endpoint, by rw [h1]; exact h.made, by rw [b2, if_pos rfl]; exact hi, fun c => absurd b2 c,
      fun e he => ?_, fun e he => ?_, fun _ => ?_, fun i he => ?_, fun ⟨y, hy, _⟩ => ?_, fun _ c => absurd b2 c⟩
    · rw [arrivedAt_append, h2, List.append_nil]; exact h.others e he
    · rw [hi] at he; cases he
    · rw [handedOut_append, h3, List.append_nil]; exact h.none_out hi
    · rw [hi] at he; cases he
    · rw [b2] at hy; cases hy
  · obtain ⟨b1, b2⟩ := hs h0
    have hne : sinceAccept (evs ++ [x]) ≠ [] := by rw [b2]; simp
    refine ⟨by rw [h1]; exact h.endpoint, by rw [h1]; exact h.made, by rw [if_neg hne, b1, h.incoming, if_neg h0],
      fun _ => by rw [b1]; exact h.live h0, fun e he => ?_, fun e he => ?_, fun he => ?_, fun i he e a hm => ?_, fun ⟨y, hy, hb⟩ => ?_,
      fun hy _ => ?_⟩
    · rw [arrivedAt_append, h2, List.append_nil]; exact h.others e he
    · rw [arrivedAt_append, h2, List.append_nil, handedOut_append, h3, List.append_nil]; exact h.mine e he
    · rw [handedOut_append, h3, List.append_nil]; exact h.none_out he
    · rw [b2] at hm
      rcases List.mem_append.1 hm with hm | hm
      · exact h.fresh i he e a hm
      · rw [← List.mem_singleton.1 hm] at h5; cases h5
    · rw [b2] at hy
      rcases List.mem_append.1 hy with hy | hy
      · obtain ⟨e, a, e1, e2⟩ := h.moved ⟨y, hy, hb⟩
        exact ⟨e, a, by rw [h1]; exact e1, by rw [b2]; exact List.mem_append_left _ e2⟩
      · rw [List.mem_singleton.1 hy, h5] at hb; cases hb
    · rw [h1, b1]
      exact h.stay (fun y hm => hy y (by rw [b2]; exact List.mem_append_left _ hm)) h0

/-- An endpoint that is opened, by a bind or (if there is none) by a dial. -/
theorem QOk.opened {q : Quic A} {evs : List (QuicEv A)} (h : QOk q evs) {x : QuicEv A} (a : A) (srv : Bool)
    (h1 : here (evs ++ [x]) = some (q.made.length, a))
    (h2 : ∀ e, arrivedAt e [x] = []) (h3 : handedOut [x] = []) (h4 : isAccept x = false)
    (h5 : isBound x = true ∧ x = .bound q.made.length a ∨ isBound x = false ∧ here evs = none) :
    QOk { q with made := q.made ++ [(a, srv)], endpoint := some q.made.length } (evs ++ [x]) := by
  obtain ⟨hn, hs⟩ := before_snoc evs x
  by_cases h0 : sinceAccept evs = []
  · obtain ⟨b1, b2⟩ := hn h0
    rw [h4] at b1 b2
    simp only [Bool.false_eq_true, if_false] at b1 b2
    have hi : q.incoming = none := by rw [h.incoming, if_pos h0]
    refine ⟨by rw [h1]; rfl, fun e b hb => ?_, by rw [b2, if_pos rfl]; exact hi, fun c => absurd b2 c,
      fun e he => ?_, fun e he => ?_, fun _ => ?_, fun i he => ?_, fun ⟨y, hy, _⟩ => ?_, fun _ c => absurd b2 c⟩
    · rw [h1] at hb; cases hb; simp
    · rw [arrivedAt_append, h2, List.append_nil]; exact h.others e he
    · rw [hi] at he; cases he
    · rw [handedOut_append, h3, List.append_nil]; exact h.none_out hi
    · rw [hi] at he; cases he
    · rw [b2] at hy; cases hy
  · obtain ⟨b1, b2⟩ := hs h0
    have hne : sinceAccept (evs ++ [x]) ≠ [] := by rw [b2]; simp
    obtain ⟨i0, a0, l1, l2⟩ := h.live h0
    have hi0 : q.incoming = some i0 := by rw [h.incoming, if_neg h0, l1]; rfl
    have hx : x = .bound q.made.length a := by
      rcases h5 with ⟨_, hx⟩ | ⟨_, hx⟩
      · exact hx
      · exfalso
        by_cases hb : ∃ x ∈ sinceAccept evs, isBound x = true
        · obtain ⟨e, a, e1, _⟩ := h.moved hb
          rw [hx] at e1; cases e1
        · have := h.stay (fun x hm => by cases hbx : isBound x with
            | false => rfl
            | true => exact absurd ⟨x, hm, hbx⟩ hb) h0
          rw [hx, l1] at this; cases this
    refine ⟨by rw [h1]; rfl, fun e b hb => ?_, by rw [if_neg hne, b1]; exact (h.incoming.trans (if_neg h0)),
      fun _ => ?_, fun e he => ?_, fun e he => ?_, fun he => ?_, fun i he e b hm => ?_, fun _ => ?_, fun hy _ => ?_⟩
    · rw [h1] at hb; cases hb; simp
    · rw [b1]; exact ⟨i0, a0, l1, by simp; omega⟩
    · rw [arrivedAt_append, h2, List.append_nil]; exact h.others e he
    · rw [arrivedAt_append, h2, List.append_nil, handedOut_append, h3, List.append_nil]; exact h.mine e he
    · rw [handedOut_append, h3, List.append_nil]; exact h.none_out he
    · rw [b2] at hm
      have he : q.incoming = some i := he
      rcases List.mem_append.1 hm with hm | hm
      · exact h.fresh i he e b hm
      · rw [hx] at hm
        have := List.mem_singleton.1 hm
        cases this
        rw [hi0] at he; cases he
        omega
    · exact ⟨_, a, h1, by rw [b2, hx]; simp⟩
    · have := hy x (by rw [b2]; simp)
      rw [hx] at this; cases this

theorem QOk.arrived {q : Quic A} {evs : List (QuicEv A)} (h : QOk q evs) (e : Nat) (r : QuicIn A) :
    QOk { q with queues := fun i => if i = e then q.queues i ++ [r] else q.queues i } (evs ++ [.arrived e r]) := by
  have h1 : here (evs ++ [.arrived e r]) = here evs := here_snoc ..
  have h3 : handedOut (evs ++ [.arrived e r]) = handedOut evs := by rw [handedOut_append]; simp [handedOut]
  have h2 : ∀ i, arrivedAt i (evs ++ [.arrived e r]) = arrivedAt i evs ++ if e = i then [r] else [] := by
    intro i; rw [arrivedAt_append]; simp [arrivedAt]
  obtain ⟨hn, hs⟩ := before_snoc evs (.arrived e r)
  have hq : ∀ i, q.incoming ≠ some i →
      (if i = e then q.queues i ++ [r] else q.queues i) = arrivedAt i (evs ++ [.arrived e r]) := by
    intro i hi
    rw [h2, ← h.others i hi]
    by_cases c : i = e
    · rw [if_pos c, if_pos c.symm]
    · rw [if_neg c, if_neg (fun d => c d.symm), List.append_nil]
  have hm : ∀ i, q.incoming = some i →
      (if i = e then q.queues i ++ [r] else q.queues i) = (arrivedAt i (evs ++ [.arrived e r])).drop (handedOut (evs ++ [.arrived e r])).length ∧
      handedOut (evs ++ [.arrived e r]) =
        ((arrivedAt i (evs ++ [.arrived e r])).take (handedOut (evs ++ [.arrived e r])).length).map QuicIn.fut := by
    intro i hi
    obtain ⟨m1, m2⟩ := h.mine i hi
    have hl : (handedOut evs).length ≤ (arrivedAt i evs).length := by
      have := congrArg List.length m2
      simp only [List.length_map, List.length_take] at this
      omega
    rw [h2, h3, List.drop_append_of_le_length hl, List.take_append_of_le_length hl, ← m1]
    refine ⟨?_, m2⟩
    by_cases c : i = e
    · rw [if_pos c, if_pos c.symm]
    · rw [if_neg c, if_neg (fun d => c d.symm), List.append_nil]
  by_cases h0 : sinceAccept evs = []
  · obtain ⟨b1, b2⟩ := hn h0
    have b2 : sinceAccept (evs ++ [.arrived e r]) = [] := b2
    have hi : q.incoming = none := by rw [h.incoming, if_pos h0]
    refine ⟨by rw [h1]; exact h.endpoint, by rw [h1]; exact h.made, by rw [b2, if_pos rfl]; exact hi, fun c => absurd b2 c,
      hq, hm, fun _ => ?_, fun i he => ?_, fun ⟨y, hy, _⟩ => ?_, fun _ c => absurd b2 c⟩
    · rw [h3]; exact h.none_out hi
    · have he : q.incoming = some i := he
      rw [hi] at he; cases he
    · rw [b2] at hy; cases hy
  · obtain ⟨b1, b2⟩ := hs h0
    have hne : sinceAccept (evs ++ [.arrived e r]) ≠ [] := by rw [b2]; simp
    refine ⟨by rw [h1]; exact h.endpoint, by rw [h1]; exact h.made, by rw [if_neg hne, b1]; exact (h.incoming.trans (if_neg h0)),
      fun _ => by rw [b1]; exact h.live h0, hq, hm, fun he => ?_, fun i he e a hm => ?_, fun ⟨y, hy, hb⟩ => ?_,
      fun hy _ => ?_⟩
    · rw [h3]; exact h.none_out he
    · rw [b2] at hm
      rcases List.mem_append.1 hm with hm | hm
      · exact h.fresh i he e a hm
      · cases List.mem_singleton.1 hm
    · rw [b2] at hy
      rcases List.mem_append.1 hy with hy | hy
      · obtain ⟨e, a, e1, e2⟩ := h.moved ⟨y, hy, hb⟩
        exact ⟨e, a, by rw [h1]; exact e1, by rw [b2]; exact List.mem_append_left _ e2⟩
      · rw [List.mem_singleton.1 hy] at hb; cases hb
    · rw [h1, b1]
      exact h.stay (fun y hm => hy y (by rw [b2]; exact List.mem_append_left _ hm)) h0

/-- The accept task is started (or runs already) on endpoint `e`: the state before the channel is read. -/
theorem QOk.accept {q : Quic A} {evs : List (QuicEv A)} (h : QOk q evs) {x : QuicEv A} (hx : isAccept x = true)
    (e : Nat) (rs : List (QuicIn A))
    (hi : (if q.incoming.isSome then q.incoming else q.endpoint) = some e)
    (hrs : rs = (arrivedAt e evs).drop (handedOut (evs ++ [x])).length)
    (hout : handedOut (evs ++ [x]) = ((arrivedAt e evs).take (handedOut (evs ++ [x])).length).map QuicIn.fut) :
    QOk { q with incoming := some e, queues := fun i => if i = e then rs else q.queues i } (evs ++ [x]) := by
  have hb : isBound x = false := by cases x <;> first | rfl | cases hx
  have h1 : here (evs ++ [x]) = here evs := by rw [here_snoc]; cases x <;> first | rfl | cases hx
  have h2 : ∀ i, arrivedAt i (evs ++ [x]) = arrivedAt i evs := by
    intro i; rw [arrivedAt_append]; cases x <;> first | (simp [arrivedAt]; done) | cases hx
  obtain ⟨hn, hs⟩ := before_snoc evs x
  have hq : ∀ i, some e ≠ some i → (if i = e then rs else q.queues i) = arrivedAt i (evs ++ [x]) := by
    intro i hi'
    have hne : i ≠ e := fun c => hi' (by rw [c])
    rw [if_neg hne, h2]
    refine h.others i fun c => ?_
    rw [c] at hi
    exact hi' hi.symm
  have hm : ∀ i, some e = some i → (if i = e then rs else q.queues i) =
      (arrivedAt i (evs ++ [x])).drop (handedOut (evs ++ [x])).length ∧
      handedOut (evs ++ [x]) = ((arrivedAt i (evs ++ [x])).take (handedOut (evs ++ [x])).length).map QuicIn.fut := by
    intro i hi'
    cases hi'
    rw [if_pos rfl, h2]
    exact ⟨hrs, hout⟩
  by_cases h0 : sinceAccept evs = []
  · obtain ⟨b1, b2⟩ := hn h0
    rw [hx] at b1 b2
    simp only [if_true, List.append_nil] at b1 b2
    have hi0 : q.incoming = none := by rw [h.incoming, if_pos h0]
    rw [hi0] at hi
    have hi : q.endpoint = some e := hi
    have he := h.endpoint
    rw [hi] at he
    rcases hh : here evs with _ | ⟨e', a⟩
    · rw [hh] at he; cases he
    rw [hh] at he
    have he : e = e' := Option.some.inj he
    subst he
    have hlt : e < q.made.length := by
      have := h.made e a hh
      rcases hm : q.made[e]? with _ | v
      · rw [hm] at this; cases this
      · exact (List.getElem?_eq_some_iff.1 hm).1
    have hne : sinceAccept (evs ++ [x]) ≠ [] := by rw [b2]; simp
    refine ⟨by rw [h1]; exact h.endpoint, by rw [h1]; exact h.made, by rw [if_neg hne, b1, hh]; rfl,
      fun _ => ⟨e, a, by rw [b1, hh], hlt⟩, hq, hm, fun c => (by cases c), fun i _ f b hm => ?_, fun ⟨y, hy, hb'⟩ => ?_,
      fun _ _ => by rw [h1, b1]⟩
    · rw [b2] at hm
      rw [← List.mem_singleton.1 hm] at hb; cases hb
    · rw [b2] at hy
      rw [List.mem_singleton.1 hy, hb] at hb'; cases hb'
  · obtain ⟨b1, b2⟩ := hs h0
    have hne : sinceAccept (evs ++ [x]) ≠ [] := by rw [b2]; simp
    obtain ⟨i0, a0, l1, l2⟩ := h.live h0
    have hi0 : q.incoming = some i0 := by rw [h.incoming, if_neg h0, l1]; rfl
    rw [hi0] at hi
    have hi : some i0 = some e := hi
    cases hi
    refine ⟨by rw [h1]; exact h.endpoint, by rw [h1]; exact h.made, by rw [if_neg hne, b1, l1]; rfl,
      fun _ => by rw [b1]; exact h.live h0, hq, hm, fun c => (by cases c), fun i he f b hm => ?_, fun ⟨y, hy, hb'⟩ => ?_,
      fun hy _ => ?_⟩
    · rw [b2] at hm
      rcases List.mem_append.1 hm with hm | hm
      · exact fun c => h.fresh _ hi0 f b hm (c.trans (Option.some.inj he).symm)
      · rw [← List.mem_singleton.1 hm] at hb; cases hb
    · rw [b2] at hy
      rcases List.mem_append.1 hy with hy | hy
      · obtain ⟨f, b, e1, e2⟩ := h.moved ⟨y, hy, hb'⟩
        exact ⟨f, b, by rw [h1]; exact e1, by rw [b2]; exact List.mem_append_left _ e2⟩
      · rw [List.mem_singleton.1 hy, hb] at hb'; cases hb'
    · rw [h1, b1]
      exact h.stay (fun y hm => hy y (by rw [b2]; exact List.mem_append_left _ hm)) h0

/-- What a QUIC transport may do next. -/
def QStep (before : List (QuicEv A)) : QuicEv A → Prop
  | .dialed e src _ => ∃ a, src = some a ∧ (here before = none ∨ here before = some (e, a))
  | .dialFailed => here before = none
  | .unbound => here before = none
  | .pending => ∃ e a, here (beforeAccept (before ++ [.pending])) = some (e, a) ∧
      (handedOut before).length = (arrivedAt e before).length
  | _ => True

theorem quic_call {q : Quic A} {evs : List (QuicEv A)} (h : QOk q evs) (c : QuicCall A) :
    QOk (q.call c).2 (evs ++ (q.call c).1.toList) ∧ ∀ x, (q.call c).1 = some x → QStep evs x := by
  cases c with
  | bind res =>
    cases res with
    | none =>
      exact ⟨h.idle (x := .bindFailed) (here_snoc ..) (fun _ => rfl) rfl rfl rfl, fun x hx => by cases hx; trivial⟩
    | some a =>
      have e : q.call (.bind (some a)) = (some (.bound q.made.length a),
          { q with made := q.made ++ [(a, true)], endpoint := some q.made.length }) := by
        simp [Quic.call, Quic.bind]
      rw [e]
      exact ⟨h.opened a true (here_snoc ..) (fun _ => rfl) rfl rfl (.inl ⟨rfl, rfl⟩), fun x hx => by cases hx; trivial⟩
  | connect target res =>
    rcases hh : here evs with _ | ⟨e, a⟩
    · have he : q.endpoint = none := by rw [h.endpoint, hh]; rfl
      cases res with
      | none =>
        have e : q.call (.connect target none) = (some .dialFailed, q) := by simp [Quic.call, Quic.connect, he]
        rw [e]
        exact ⟨h.idle (x := .dialFailed) (here_snoc ..) (fun _ => rfl) rfl rfl rfl, fun x hx => by cases hx; exact hh⟩
      | some a =>
        have e : q.call (.connect target (some a)) = (some (.dialed q.made.length (some a) target),
            { q with made := q.made ++ [(a, false)], endpoint := some q.made.length }) := by
          simp [Quic.call, Quic.connect, he]
        rw [e]
        refine ⟨h.opened a false ?_ (fun _ => rfl) rfl rfl (.inr ⟨rfl, hh⟩), fun x hx => by
          cases hx; exact ⟨a, rfl, .inl hh⟩⟩
        rw [here_snoc, hh]; rfl
    · have he : q.endpoint = some e := by rw [h.endpoint, hh]; rfl
      have e' : q.call (.connect target res) = (some (.dialed e (some a) target), q) := by
        simp only [Quic.call, Quic.connect, he, h.made e a hh]
      rw [e']
      refine ⟨h.idle (x := .dialed e (some a) target) ?_ (fun _ => rfl) rfl rfl rfl, fun x hx => by
        cases hx; exact ⟨a, rfl, .inr hh⟩⟩
      rw [here_snoc, hh]; rfl
  | arrive e r =>
    simp only [Quic.call]
    rcases hm : q.made[e]? with _ | ⟨a, _ | _⟩ <;> simp only
    · exact ⟨by simpa using h, fun x hx => by cases hx⟩
    · exact ⟨by simpa using h, fun x hx => by cases hx⟩
    · exact ⟨h.arrived e r, fun x hx => by cases hx; trivial⟩
  | pollAccept =>
    rcases hi : (if q.incoming.isSome then q.incoming else q.endpoint) with _ | e
    · have hin : q.incoming = none := by
        rcases hq : q.incoming with _ | i
        · rfl
        · rw [hq] at hi; cases hi
      rw [hin] at hi
      have hi : q.endpoint = none := hi
      have hh : here evs = none := by
        have := h.endpoint
        rw [hi] at this
        rcases hh : here evs with _ | p
        · rfl
        · rw [hh] at this; cases this
      have e' : q.call .pollAccept = (some .unbound, q) := by
        obtain ⟨m, ep, inc, qs⟩ := q
        cases hin; cases hi
        rfl
      rw [e']
      exact ⟨h.idle (x := .unbound) (here_snoc ..) (fun _ => rfl) rfl rfl rfl, fun x hx => by cases hx; exact hh⟩
    · have hst : (if q.incoming.isSome then q else { q with incoming := q.endpoint }) = { q with incoming := some e } := by
        obtain ⟨m, ep, inc, qs⟩ := q
        cases inc with
        | none => simp only [Option.isSome_none, Bool.false_eq_true, if_false] at hi ⊢; rw [hi]
        | some i => simp only [Option.isSome_some, if_true] at hi ⊢; rw [hi]
      have hlen : (handedOut evs).length ≤ (arrivedAt e evs).length ∧ q.queues e = (arrivedAt e evs).drop (handedOut evs).length ∧
          handedOut evs = ((arrivedAt e evs).take (handedOut evs).length).map QuicIn.fut := by
        rcases hq : q.incoming with _ | i
        · have hn := h.none_out hq
          rw [hn]
          exact ⟨Nat.zero_le _, h.others e (by rw [hq]; simp), rfl⟩
        · rw [hq] at hi
          have hi : some i = some e := hi
          cases hi
          obtain ⟨m1, m2⟩ := h.mine e hq
          refine ⟨?_, m1, m2⟩
          have := congrArg List.length m2
          simp only [List.length_map, List.length_take] at this
          omega
      obtain ⟨l1, l2, l3⟩ := hlen
      have hp : q.pollAccept = (match q.queues e with
          | [] => (none, { q with incoming := some e })
          | r :: rs => (some r.fut, { q with incoming := some e, queues := fun i => if i = e then rs else q.queues i })) := by
        unfold Quic.pollAccept
        rw [hst]
        rcases hqe : q.queues e with _ | ⟨r, rs⟩ <;> simp only [hqe]
      rcases hq : q.queues e with _ | ⟨r, rs⟩
      · rw [hq] at hp
        have e' : q.call .pollAccept = (some .pending, { q with incoming := some e }) := by
          simp only [Quic.call, hp]
        have hqq : (fun i => if i = e then ([] : List (QuicIn A)) else q.queues i) = q.queues := by
          funext i
          by_cases c : i = e
          · rw [if_pos c, c, hq]
          · rw [if_neg c]
        have h3 : handedOut (evs ++ [.pending]) = handedOut evs := by rw [handedOut_append]; simp [handedOut]
        have key := h.accept (x := .pending) rfl e [] hi (by rw [h3, ← l2, hq]) (by rw [h3]; exact l3)
        rw [hqq] at key
        rw [e']
        refine ⟨key, fun x hx => ?_⟩
        cases hx
        have hne : sinceAccept (evs ++ [.pending]) ≠ [] := by
          obtain ⟨hn, hs⟩ := before_snoc evs .pending
          by_cases h0 : sinceAccept evs = []
          · rw [(hn h0).2]; simp [isAccept]
          · rw [(hs h0).2]; simp
        obtain ⟨i, a, k1, _⟩ := key.live hne
        have k2 := key.incoming
        rw [if_neg hne, k1] at k2
        have k2 : e = i := Option.some.inj k2
        subst k2
        refine ⟨e, a, k1, ?_⟩
        have := congrArg List.length l2
        rw [hq, List.length_drop] at this
        simp only [List.length_nil] at this
        omega
      · rw [hq] at hp
        have e' : q.call .pollAccept = (some (.took r.fut),
            { q with incoming := some e, queues := fun i => if i = e then rs else q.queues i }) := by
          simp only [Quic.call, hp, Option.isSome_some, if_true]
        have h3 : handedOut (evs ++ [.took r.fut]) = handedOut evs ++ [r.fut] := by rw [handedOut_append]; simp [handedOut]
        have hr : (arrivedAt e evs)[(handedOut evs).length]? = some r := by
          have h1 : ((arrivedAt e evs).drop (handedOut evs).length)[0]? = some r := by rw [← l2, hq]; rfl
          rwa [List.getElem?_drop, Nat.add_zero] at h1
        rw [e']
        refine ⟨h.accept (x := .took r.fut) rfl e rs hi ?_ ?_, fun x hx => by cases hx; trivial⟩
        · rw [h3, List.length_append, List.length_singleton, ← List.drop_drop, ← l2, hq]; rfl
        · rw [h3, List.length_append, List.length_singleton, List.take_add_one, hr, List.map_append, ← l3]; rfl

theorem quic_hist {q : Quic A} {evs : List (QuicEv A)} (h : QOk q evs)
    (hs : ∀ b x a, evs = b ++ x :: a → QStep b x) (cs : List (QuicCall A)) :
    QOk (q.hist cs).2 (evs ++ (q.hist cs).1) ∧ ∀ b x a, evs ++ (q.hist cs).1 = b ++ x :: a → QStep b x := by
  induction cs generalizing q evs with
  | nil => simpa [Quic.hist] using ⟨h, hs⟩
  | cons c cs ih =>
    obtain ⟨h1, h2⟩ := quic_call h c
    have h3 : ∀ b x a, evs ++ (q.call c).1.toList = b ++ x :: a → QStep b x := by
      rcases hc : (q.call c).1 with _ | y
      · simpa using hs
      · intro b x a hx
        rcases List.eq_nil_or_concat a with rfl | ⟨a', z, rfl⟩
        · obtain ⟨g1, g2⟩ := List.append_inj' hx rfl
          cases g2; subst g1; exact h2 _ hc
        · have : evs ++ [y] = (b ++ x :: a') ++ [z] := by
            have hx : evs ++ [y] = _ := hx
            rw [hx]; simp
          obtain ⟨g1, _⟩ := List.append_inj' this rfl
          exact hs b x a' g1
    have := ih h1 h3
    rw [List.append_assoc] at this
    exact this

theorem quic_all (cs : List (QuicCall A)) :
    QOk (({} : Quic A).hist cs).2 (({} : Quic A).hist cs).1 ∧
    ∀ b x a, (({} : Quic A).hist cs).1 = b ++ x :: a → QStep b x := by
  have := quic_hist q_new (fun b x a h => by cases b <;> cases h) cs
  simpa using this

/-- C63: after any history, `local_addr` of a QUIC transport is that of the endpoint bound last, or else of the endpoint of
the first dial. -/
theorem C63_local_addr (cs : List (QuicCall A)) :
    (({} : Quic A).hist cs).2.localAddr = (here (({} : Quic A).hist cs).1).map (·.2) := by
  have h := (quic_all cs).1
  unfold Quic.localAddr
  rw [h.endpoint]
  rcases hh : here (({} : Quic A).hist cs).1 with _ | ⟨e, a⟩
  · rfl
  · exact h.made e a hh

/-- C63: what a QUIC transport accepts, over any history: once a `poll_accept` found an endpoint, the connections handed out
are those that arrived at the endpoint of that moment, each once and in order; `poll_accept` is pending only when all of
them were handed out. -/
theorem C63_accepts_where (cs : List (QuicCall A)) (evs : List (QuicEv A)) (hev : evs = (({} : Quic A).hist cs).1) :
    (sinceAccept evs = [] → handedOut evs = []) ∧
    (sinceAccept evs ≠ [] → ∃ e a, here (beforeAccept evs) = some (e, a) ∧
      handedOut evs = ((arrivedAt e evs).take (handedOut evs).length).map quicFuture) ∧
    (∀ before after, evs = before ++ .pending :: after → ∃ e a, here (beforeAccept (before ++ [.pending])) = some (e, a) ∧
      (handedOut before).length = (arrivedAt e before).length) := by
  subst hev
  rw [← quicFuture_eq]
  obtain ⟨h, hs⟩ := quic_all cs
  refine ⟨fun h0 => h.none_out (by rw [h.incoming, if_pos h0]), fun h0 => ?_, fun b a hb => hs b .pending a hb⟩
  obtain ⟨e, a, h1, _⟩ := h.live h0
  exact ⟨e, a, h1, (h.mine e (by rw [h.incoming, if_neg h0, h1]; rfl)).2⟩

/-- C63: as long as no bind succeeded after the first `poll_accept` that found an endpoint, the connections accepted are the
ones that arrive where `local_addr` says (whatever was bound, or dialled, before). Missing: later binds, for which this is
false (`C63_quic_rebind_refuted`). -/
theorem C63_quic_rebind_partial (cs : List (QuicCall A)) (evs : List (QuicEv A)) (hev : evs = (({} : Quic A).hist cs).1)
    (hacc : sinceAccept evs ≠ []) (hno : ∀ x ∈ sinceAccept evs, isBound x = false) :
    ∃ e a, here evs = some (e, a) ∧ (({} : Quic A).hist cs).2.localAddr = some a ∧
      handedOut evs = ((arrivedAt e evs).take (handedOut evs).length).map quicFuture := by
  obtain ⟨e, a, h1, h2⟩ := (C63_accepts_where cs evs hev).2.1 hacc
  subst hev
  have h := (quic_all cs).1
  have h3 := h.stay hno hacc
  rw [h1] at h3
  exact ⟨e, a, h3, by rw [C63_local_addr, h3]; rfl, h2⟩

/-- C63 is false once a bind succeeds after the first `poll_accept`, whatever the history: `local_addr` reports the endpoint
bound last, and everything that is handed out, then and later, arrived at another one. -/
theorem C63_quic_rebind_refuted (cs : List (QuicCall A)) (evs : List (QuicEv A)) (hev : evs = (({} : Quic A).hist cs).1)
    (hacc : ∃ x ∈ sinceAccept evs, isBound x = true) :
    ∃ e a e' a', here (beforeAccept evs) = some (e, a) ∧ here evs = some (e', a') ∧
      (({} : Quic A).hist cs).2.localAddr = some a' ∧ e' ≠ e ∧
      handedOut evs = ((arrivedAt e evs).take (handedOut evs).length).map quicFuture := by
  have hne : sinceAccept evs ≠ [] := by
    obtain ⟨x, hx, _⟩ := hacc
    intro c; rw [c] at hx; cases hx
  obtain ⟨e, a, h1, h2⟩ := (C63_accepts_where cs evs hev).2.1 hne
  subst hev
  have h := (quic_all cs).1
  obtain ⟨e', a', h3, h4⟩ := h.moved hacc
  refine ⟨e, a, e', a', h1, h3, by rw [C63_local_addr, h3]; rfl, h.fresh e ?_ e' a' h4, h2⟩
  rw [h.incoming, if_neg hne, h1]; rfl

/-- C96: every connection a QUIC transport dials goes out of the endpoint it has (the address `local_addr` reports): the one
bound last, or else one that is opened by the first dial and used by all later ones. A dial fails for want of an endpoint
only if there was none. -/
theorem C96_dials (cs : List (QuicCall A)) (evs : List (QuicEv A)) (hev : evs = (({} : Quic A).hist cs).1)
    (before after : List (QuicEv A)) :
    (∀ e src target, evs = before ++ .dialed e src target :: after →
      ∃ a, src = some a ∧ here (before ++ [.dialed e src target]) = some (e, a) ∧ (here before ≠ none → here before = some (e, a))) ∧
    (evs = before ++ .dialFailed :: after → here before = none) := by
  subst hev
  obtain ⟨_, hs⟩ := quic_all cs
  refine ⟨fun e src target hx => ?_, fun hx => hs _ _ _ hx⟩
  obtain ⟨a, h1, h2⟩ := hs _ _ _ hx
  subst h1
  refine ⟨a, rfl, ?_, fun hn => ?_⟩
  · rw [here_snoc]
    rcases h2 with h2 | h2 <;> rw [h2] <;> rfl
  · rcases h2 with h2 | h2
    · exact absurd h2 hn
    · exact h2

/-- A server that binds, accepts, and binds again: it goes on accepting at the first address; and one that dialled before it
was asked to accept, then binds: it never accepts. -/
example :
    let h : List (QuicCall Nat) → List (QuicEv Nat) × Quic Nat := fun cs => ({} : Quic Nat).hist cs
    let server := h [.pollAccept, .bind (some 10), .arrive 0 (.conn 1 99 0 true), .pollAccept, .bind (some 20),
      .arrive 1 (.conn 2 99 0 true), .arrive 0 (.conn 3 99 0 true), .pollAccept, .pollAccept]
    let dialer := h [.connect 50 (some 30), .pollAccept, .bind (some 10), .arrive 1 (.conn 1 99 0 true), .pollAccept, .connect 51 none]
    server.2.localAddr = some 20 ∧ (handedOut server.1).length = 2 ∧ arrivedAt 1 server.1 = [.conn 2 99 0 true] ∧
    (arrivedAt 0 server.1).length = 2 ∧ (sinceAccept server.1).any isBound = true ∧
    dialer.2.localAddr = some 10 ∧ (handedOut dialer.1).length = 0 ∧ (arrivedAt 1 dialer.1).length = 1 ∧
    here dialer.1 = some (1, 10) ∧ dialer.1.length = 6 := by decide +kernel

/-- C95: what `bind` returns. On a TCP or a QUIC transport, in any state, it returns `Ok` iff the listener (or endpoint) could be created, whose address
`local_addr` then reports; if it returns an error, nothing about the transport has changed. (For IPC: `C64_ipc_bind_partial`.) -/
theorem C95_bind_result {A : Type} (t : Tcp A) (q : Quic A) (res : Option A) :
    ((t.bind res).1 = true ↔ ∃ a, res = some a) ∧ ((q.bind res).1 = true ↔ ∃ a, res = some a) ∧
    ((t.bind res).1 = false → (t.bind res).2 = t) ∧ ((q.bind res).1 = false → (q.bind res).2 = q) ∧
    (∀ a, res = some a → (t.bind res).2.addr = some a ∧ (q.bind res).2.localAddr = some a) := by
  cases res with
  | none => simp [Tcp.bind, Quic.bind]
  | some a => simp [Tcp.bind, Quic.bind, Quic.localAddr]

end
end MsgRs.Props
