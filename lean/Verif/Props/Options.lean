import Verif.Spec.Options
import Verif.Proofs.ReqOptions
import Verif.Props.ReqSocket
/-!
# C97, C38: options
-/
namespace MsgRs.Props
open MsgRs MsgRs.Spec
variable {A : Type}

/-- A field that each call either sets or leaves alone has, after a chain of calls, the value last set. -/
theorem foldl_setTo {O σ α : Type} (set : O → σ → O) (get : O → α) (arg : σ → Option α)
    (h : ∀ o c, get (set o c) = (arg c).getD (get o)) (calls : List σ) (o : O) :
    get (calls.foldl set o) = setTo arg (get o) calls := by
  induction calls generalizing o with
  | nil => rfl
  | cons c cs ih =>
    rw [List.foldl_cons, ih, h]
    unfold setTo
    cases hc : arg c with
    | none => rw [List.filterMap_cons_none hc]; rfl
    | some a =>
      rw [List.filterMap_cons_some hc, List.getLast?_cons]
      rfl

/-- C97 (request socket): after any chain of builder calls each option has the argument of the last call of its own method, or, if there was
none, the documented default: no token, 5 s, blocking, 200 ms, no flush interval, 8192 bytes, unlimited, 8192 bytes. -/
theorem C97_req_options (calls : List Req.Setter) :
    (Req.Options.build calls).token = setTo (fun | .authToken t => some (some t) | _ => none) none calls ∧
    (Req.Options.build calls).timeout = setTo (fun | .timeout d => some d | _ => none) 5000000000 calls ∧
    (Req.Options.build calls).blockingConnect = true ∧
    (Req.Options.build calls).backoffDuration = setTo (fun | .backoffDuration d => some d | _ => none) 200000000 calls ∧
    (Req.Options.build calls).flushInterval = setTo (fun | .flushInterval d => some (some d) | _ => none) none calls ∧
    (Req.Options.build calls).boundary = setTo (fun | .backpressureBoundary n => some n | _ => none) 8192 calls ∧
    (Req.Options.build calls).retryAttempts = setTo (fun | .retryAttempts n => some (some n) | _ => none) none calls ∧
    (Req.Options.build calls).minCompress = setTo (fun | .minCompressSize n => some n | _ => none) 8192 calls := by
  refine ⟨foldl_setTo Req.Options.set (·.token) _ (fun o c => by cases c <;> rfl) calls {},
    foldl_setTo Req.Options.set (·.timeout) _ (fun o c => by cases c <;> rfl) calls {}, ?_,
    foldl_setTo Req.Options.set (·.backoffDuration) _ (fun o c => by cases c <;> rfl) calls {},
    foldl_setTo Req.Options.set (·.flushInterval) _ (fun o c => by cases c <;> rfl) calls {},
    foldl_setTo Req.Options.set (·.boundary) _ (fun o c => by cases c <;> rfl) calls {},
    foldl_setTo Req.Options.set (·.retryAttempts) _ (fun o c => by cases c <;> rfl) calls {},
    foldl_setTo Req.Options.set (·.minCompress) _ (fun o c => by cases c <;> rfl) calls {}⟩
  have h : ∀ (o : Req.Options), o.blockingConnect = true → (calls.foldl Req.Options.set o).blockingConnect = true := by
    induction calls with
    | nil => exact fun o h => h
    | cons c cs ih =>
      intro o ho
      exact ih _ (by cases c <;> first | exact ho | rfl)
  exact h {} rfl

/-- C97 (publisher): after any chain of builder calls the socket's client limit, channel size, write boundary and compression threshold, and the
write boundary and flush interval of its sessions, are the arguments of the last call of their own method, or the documented defaults: no limit, 1024
messages, 8192 bytes, 8192 bytes, 50 µs. -/
theorem C97_pub_options (calls : List Pub.Setter) (authn : Option (Bytes → Bool)) (comp : Option Compressor) :
    let o := Pub.Options.build calls
    let s : Pub.Server A := o.socket authn comp
    let boundary := setTo (fun | Pub.Setter.backpressureBoundary n => some n | _ => none) 8192 calls
    let interval := setTo (fun | Pub.Setter.flushInterval d => some (some d) | _ => none) (some 50000) calls
    s.max = setTo (fun | .maxClients n => some (some n) | _ => none) none calls ∧
    s.sock.bufferSize = setTo (fun | .sessionBufferSize n => some n | _ => none) 1024 calls ∧
    s.sock.minCompress = setTo (fun | .minCompressSize n => some n | _ => none) 8192 calls ∧
    s.boundary = boundary ∧ s.authn = authn ∧ s.sock.comp = comp ∧
    ∀ input now, o.session input now = Pub.Timed.new boundary input interval now := by
  have h1 := foldl_setTo Pub.Options.set (·.maxClients) (fun | .maxClients n => some (some n) | _ => none) (fun o c => by cases c <;> rfl) calls {}
  have h2 := foldl_setTo Pub.Options.set (·.sessionBuffer) (fun | .sessionBufferSize n => some n | _ => none) (fun o c => by cases c <;> rfl) calls {}
  have h3 := foldl_setTo Pub.Options.set (·.minCompress) (fun | .minCompressSize n => some n | _ => none) (fun o c => by cases c <;> rfl) calls {}
  have h4 := foldl_setTo Pub.Options.set (·.boundary) (fun | .backpressureBoundary n => some n | _ => none) (fun o c => by cases c <;> rfl) calls {}
  have h5 := foldl_setTo Pub.Options.set (·.flushInterval) (fun | .flushInterval d => some (some d) | _ => none) (fun o c => by cases c <;> rfl) calls {}
  refine ⟨h1, h2, h3, h4, rfl, rfl, fun input now => ?_⟩
  show Pub.Timed.new (Pub.Options.build calls).boundary input (Pub.Options.build calls).flushInterval now = _
  rw [show (Pub.Options.build calls).boundary = _ from h4, show (Pub.Options.build calls).flushInterval = _ from h5]

/-- C97 (subscriber): after any chain of builder calls each option has the argument of the last call of its own method, or the documented
default: no token, 1024 messages, 8192 bytes, 100 ms. -/
theorem C97_sub_options (calls : List Sub.Setter) :
    (Sub.Options.build calls).token = setTo (fun | .authToken t => some (some t) | _ => none) none calls ∧
    (Sub.Options.build calls).ingress = setTo (fun | .ingressBufferSize n => some n | _ => none) 1024 calls ∧
    (Sub.Options.build calls).readBuffer = setTo (fun | .readBufferSize n => some n | _ => none) 8192 calls ∧
    (Sub.Options.build calls).initialBackoff = setTo (fun | .initialBackoff d => some d | _ => none) 100000000 calls :=
  ⟨foldl_setTo Sub.Options.set (·.token) _ (fun o c => by cases c <;> rfl) calls {},
    foldl_setTo Sub.Options.set (·.ingress) _ (fun o c => by cases c <;> rfl) calls {},
    foldl_setTo Sub.Options.set (·.readBuffer) _ (fun o c => by cases c <;> rfl) calls {},
    foldl_setTo Sub.Options.set (·.initialBackoff) _ (fun o c => by cases c <;> rfl) calls {}⟩

/-- C97 (reply socket): after any chain of builder calls the socket's client limit is the argument of the last `max_clients` call, or none; and
nothing else of the socket depends on the chain: `min_compress_size` has no effect. -/
theorem C97_rep_options (calls : List Rep.Setter) (authn : Option (Bytes → Bool)) (comp : Option Compressor) :
    ((Rep.Options.build calls).socket authn comp : Rep.Socket A)
      = Rep.Socket.new (setTo (fun | .maxClients n => some (some n) | _ => none) none calls) authn comp ∧
    (Rep.Options.build calls).minCompress = setTo (fun | .minCompressSize n => some n | _ => none) 8192 calls :=
  ⟨congrArg (Rep.Socket.new · authn comp)
      (foldl_setTo Rep.Options.set (·.maxClients) (fun | .maxClients n => some (some n) | _ => none) (fun o c => by cases c <;> rfl) calls {}),
    foldl_setTo Rep.Options.set (·.minCompress) _ (fun o c => by cases c <;> rfl) calls {}⟩

/-- Example: a later call of the same method wins, other options keep their defaults. -/
example : (Req.Options.build [.timeout 7, .authToken [1], .timeout 9]).timeout = 9 ∧
    (Req.Options.build [.timeout 7, .authToken [1], .timeout 9]).token = some [1] ∧
    (Req.Options.build [.timeout 7, .authToken [1], .timeout 9]).boundary = 8192 := ⟨rfl, rfl, rfl⟩

/-- C38, C97: two request sockets whose options differ at most in `blocking_connect`, `backoff_duration` and `retry_attempts` behave alike in every
history: one panics iff the other does, and otherwise every call has had the same result, and if a driver runs, both made their connection attempts at the same times, handed the
same bytes and messages to the same connections, read the same messages, completed the same calls at the same times, have the same
statistics and have both ended or both not. So these three options have no effect. -/
theorem C38_options_without_effect (D : Decompressors) (o p : Req.Options) (comp : Option Compressor) (now : Nat) (acts : List Req.SAct)
    (h1 : o.token = p.token) (h2 : o.timeout = p.timeout) (h3 : o.flushInterval = p.flushInterval) (h4 : o.boundary = p.boundary)
    (h5 : o.minCompress = p.minCompress) :
    ((Req.Socket.new o comp now).run D acts = .panic ↔ (Req.Socket.new p comp now).run D acts = .panic) ∧
    ∀ s t, (Req.Socket.new o comp now).run D acts = .ok s → (Req.Socket.new p comp now).run D acts = .ok t →
      s.callers = t.callers ∧ (∀ i, s.result i = t.result i) ∧
      (s.drv = none ↔ t.drv = none) ∧
      ∀ d f, s.drv = some d → t.drv = some f →
        d.tries = f.tries ∧ d.chans = f.chans ∧ d.done = f.done ∧ d.ended = f.ended ∧
        d.bytesTx = f.bytesTx ∧ d.bytesRx = f.bytesRx ∧ d.rtt = f.rtt := by
  have hr : (Req.Socket.new p comp now).run D acts
      = (do let t ← (Req.Socket.new o comp now).run D acts; return t.withOpts p) :=
    Req.run_with acts (Req.Socket.new o comp now) ⟨h1, h2, h3, h4, h5⟩ (fun d hd => by cases hd)
  cases hs : (Req.Socket.new o comp now).run D acts with
  | panic =>
    rw [hs] at hr
    rw [hr]
    exact ⟨⟨fun _ => rfl, fun _ => rfl⟩, fun s t h => by cases h⟩
  | ok s =>
    rw [hs] at hr
    rw [hr]
    refine ⟨⟨fun h => (by cases h), fun h => (by cases h)⟩, fun s' t h h' => ?_⟩
    cases h
    simp only [R.bind_ok, R.pure_eq, R.ok.injEq] at h'
    subst h'
    refine ⟨rfl, fun i => ?_, ?_, fun d f hd hf => ?_⟩
    · unfold Req.Socket.result
      have hc : (s.withOpts p).callers = s.callers := rfl
      have hd : (s.withOpts p).drv = s.drv.map (Req.State.withOpts p) := rfl
      rw [hc, hd]
      cases s.drv <;> rfl
    · show s.drv = none ↔ s.drv.map (Req.State.withOpts p) = none
      cases s.drv <;> simp
    · have hd' : (s.withOpts p).drv = s.drv.map (Req.State.withOpts p) := rfl
      rw [hd', hd] at hf
      cases hf
      exact ⟨rfl, rfl, rfl, rfl, rfl, rfl, rfl⟩

/-- Example: a socket told to make a single attempt, with a backoff of an hour, and one with the defaults, connecting after a failed attempt: same attempts, same request on the wire. -/
example (D : Decompressors) :
    let acts : List Req.SAct := [.connect, .driver {}, .advance 20000000, .driver {}, .driver { task := some none }, .advance 40000000, .driver {},
      .driver { task := some (some ⟨[], [], [], []⟩) }, .request [9], .poll 0, .driver {}, .driver {}]
    ∃ s t d f, (Req.Socket.new (Req.Options.build [.retryAttempts 1, .backoffDuration 3600000000000]) none 0).run D acts = .ok s ∧
      (Req.Socket.new (Req.Options.build []) none 0).run D acts = .ok t ∧ s.drv = some d ∧ t.drv = some f ∧
      d.tries = [20000000, 60000000] ∧ f.tries = [20000000, 60000000] ∧ d.chans.map (·.sent.length) = [1] :=
  ⟨_, _, _, _, rfl, rfl, rfl, rfl, rfl, rfl, rfl⟩

end MsgRs.Props
