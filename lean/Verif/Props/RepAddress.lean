import Verif.Props.Rep
/-!
# C32: a client whose own address nobody shares is served, whatever the others do
-/
namespace MsgRs.Props
open MsgRs Spec Rep
variable {A : Type} [DecidableEq A]

/-- Only an accepted connection brings a new address among those being admitted. -/
theorem admitted_addrs {D : Decompressors} {d d' : Driver A} (a : Act A) (hd : DInv D d none) (ha : d.act D a = .ok d') (x : A)
    (h : ∀ c ∈ d.connTasks ++ d.authTasks, c.addr ≠ some x) (hn : ∀ c, a = .accept c → c.addr ≠ some x) :
    ∀ c ∈ d'.connTasks ++ d'.authTasks, c.addr ≠ some x := by
  have h1 : ∀ c ∈ d.connTasks, c.addr ≠ some x := fun c hc => h c (List.mem_append.mpr (.inl hc))
  have h2 : ∀ c ∈ d.authTasks, c.addr ≠ some x := fun c hc => h c (List.mem_append.mpr (.inr hc))
  have goal : ∀ ct at' : List (Conn A), (∀ c ∈ ct, c ∈ d.connTasks ∨ a = .accept c) → (∀ c ∈ at', c ∈ d.authTasks ∨ c ∈ d.connTasks) →
      ∀ c ∈ ct ++ at', c.addr ≠ some x := by
    intro ct at' g1 g2 c hc
    rcases List.mem_append.mp hc with hc | hc
    · rcases g1 c hc with g | g
      · exact h1 c g
      · exact hn c g
    · rcases g2 c hc with g | g
      · exact h2 c g
      · exact h1 c g
  have same : d'.connTasks = d.connTasks → d'.authTasks = d.authTasks → ∀ c ∈ d'.connTasks ++ d'.authTasks, c.addr ≠ some x := by
    intro g1 g2; rw [g1, g2]; exact h
  cases a with
  | peer k e =>
    simp only [Driver.act, Driver.stepPeer] at ha
    cases hk : d.peers[k]? with
    | none => simp only [hk] at ha; cases ha; exact h
    | some q =>
      obtain ⟨hc, hl⟩ := hd.peers q (List.mem_of_getElem? hk)
      obtain ⟨q', o, hit, -⟩ := iter_spec hc hl (hd.future _ (Nat.le_refl _)) e
      simp only [hk, hit, R.bind_ok, R.pure_eq] at ha
      cases o with
      | request hh m =>
        cases ha
        simp only [Driver.onRequest]
        split
        · exact h
        · split <;> exact h
      | _ => cases ha; exact h
  | join i =>
    cases ha
    unfold Driver.stepJoin
    repeat' split
    all_goals first
      | exact h
      | exact goal _ _ (fun c hc => .inl hc) (fun c hc => .inl (List.mem_of_mem_eraseIdx hc))
  | ready i ok =>
    cases ha
    unfold Driver.stepConn
    split
    · exact h
    · rename_i c0 hc0
      simp only
      repeat' split
      all_goals first
        | exact goal _ _ (fun c hc => .inl (List.mem_of_mem_eraseIdx hc)) (fun c hc => .inl hc)
        | (refine goal _ _ (fun c hc => .inl (List.mem_of_mem_eraseIdx hc)) ?_
           intro c hc
           rcases List.mem_append.mp hc with hc | hc
           · exact .inl hc
           · rw [List.mem_singleton] at hc; subst hc; exact .inr (List.mem_of_getElem? hc0))
  | accept c0 =>
    cases ha
    have new : ∀ c ∈ d.connTasks ++ [c0], c ∈ d.connTasks ∨ Act.accept c0 = .accept c := by
      intro c hc
      rcases List.mem_append.mp hc with hc | hc
      · exact .inl hc
      · rw [List.mem_singleton] at hc; subst hc; exact .inr rfl
    unfold Driver.stepAccept
    repeat' split
    all_goals first
      | exact h
      | exact goal _ _ new (fun c hc => .inl hc)
  | recv => simp only [Driver.act] at ha; split at ha <;> cases ha <;> exact h
  | respond i b => simp only [Driver.act] at ha; split at ha <;> cases ha <;> exact h
  | drop i => simp only [Driver.act] at ha; split at ha <;> cases ha <;> exact h

/-- C32 (partial), for one client: only its own address matters. Take a moment at which a client is being served, and suppose no client being
admitted then or arriving later has the same address. Then it goes on being served until its own connection ends, whatever the other
clients do: they may share addresses with each other, fail or crash their authentication, come in any number, and the limit may be any.
Missing: a client whose own address another one uses, for which it is false (`C32_same_address_refuted`). -/
theorem C32_own_address_partial (D : Decompressors) (max authn comp) (acts rest : List (Act A)) (d d' : Driver A)
    (h : (Driver.new max authn comp : Driver A).run D acts = .ok d) (p : Peer A) (hp : p ∈ d.peers)
    (hnow : ∀ c ∈ d.connTasks ++ d.authTasks, c.addr ≠ some p.addr)
    (hlater : ∀ c, Act.accept c ∈ rest → c.addr ≠ some p.addr)
    (hr : d.run D rest = .ok d') :
    (∃ p' ∈ d'.peers, p'.uid = p.uid ∧ p'.addr = p.addr ∧ p'.input0 = p.input0) ∨
    ∃ pre k e post d1 q q', rest = pre ++ .peer k e :: post ∧ d.run D pre = .ok d1 ∧ d1.peers[k]? = some q ∧
      q.uid = p.uid ∧ q.addr = p.addr ∧ q.input0 = p.input0 ∧ q.iter d1.comp d1.slots d1.next e = .ok (q', .closed) := by
  have hd := run_reach max authn comp acts h
  clear h
  have key : ∀ (rest : List (Act A)) (d : Driver A) (q : Peer A), DInv D d none → q ∈ d.peers →
      q.uid = p.uid → q.addr = p.addr → q.input0 = p.input0 →
      (∀ c ∈ d.connTasks ++ d.authTasks, c.addr ≠ some p.addr) →
      (∀ c, Act.accept c ∈ rest → c.addr ≠ some p.addr) → d.run D rest = .ok d' →
      (∃ p' ∈ d'.peers, p'.uid = p.uid ∧ p'.addr = p.addr ∧ p'.input0 = p.input0) ∨
      ∃ pre k e post d1 q q', rest = pre ++ .peer k e :: post ∧ d.run D pre = .ok d1 ∧ d1.peers[k]? = some q ∧
        q.uid = p.uid ∧ q.addr = p.addr ∧ q.input0 = p.input0 ∧ q.iter d1.comp d1.slots d1.next e = .ok (q', .closed) := by
    intro rest
    induction rest with
    | nil =>
      intro d q hd hq h1 h2 h3 h4 h5 hr
      cases hr
      exact .inl ⟨q, hq, h1, h2, h3⟩
    | cons a rest ih =>
      intro d q hd hq h1 h2 h3 h4 h5 hr
      obtain ⟨e1, ha, hd1⟩ := act_inv hd a
      simp only [Rep.Driver.run, ha, R.bind_ok] at hr
      have hx : ∀ c ∈ d.connTasks ++ d.authTasks, c.addr ≠ some q.addr := by rw [h2]; exact h4
      rcases served_step a hd ha q hq hx with ⟨q1, g0, g1, g2, g3⟩ | ⟨k, e, q', rfl, g1, g2⟩
      · have h4' := admitted_addrs a hd ha p.addr h4 (fun c hc => h5 c (by rw [hc]; exact List.mem_cons_self))
        rcases ih e1 q1 hd1 g0 (g1.trans h1) (g2.trans h2) (g3.trans h3) h4' (fun c hc => h5 c (List.mem_cons_of_mem _ hc)) hr with g | g
        · exact .inl g
        · right
          obtain ⟨pre, k, e, post, d1, x, x', rfl, k1, k2⟩ := g
          refine ⟨a :: pre, k, e, post, d1, x, x', rfl, ?_, k2⟩
          simp only [Rep.Driver.run, ha, R.bind_ok]; exact k1
      · exact .inr ⟨[], k, e, rest, d, q, q', rfl, rfl, g1, h1, h2, h3, g2⟩
  exact key rest d p hd hp rfl rfl rfl hnow hlater hr

/-- C32 (partial), admission: in every history, without any assumption on addresses, a client whose connection is established (without authenticator) or whose
handshake succeeds (with one) is served from that moment on. Missing: until its own connection ends, if its address is shared (`C32_same_address_refuted`). -/
theorem C32_admission_partial (D : Decompressors) (max authn comp) (acts : List (Act A)) (d d' : Driver A)
    (h : (Driver.new max authn comp : Driver A).run D acts = .ok d) (a : Act A) (ha : d.act D a = .ok d') :
    (∀ i c x, a = .ready i true → d.connTasks[i]? = some c → c.addr = some x → authn = none →
      ∃ p' ∈ d'.peers, p'.uid = c.uid ∧ p'.addr = x ∧ p'.input0 = c.hs.reads) ∧
    (∀ i c x f id w rest lost, a = .join i → d.authTasks[i]? = some c → c.addr = some x → authn = some f →
      hsServer f c.hs = .accepted id w rest lost →
      ∃ p' ∈ d'.peers, p'.uid = c.uid ∧ p'.addr = x ∧ p'.input0 = rest) := by
  have hau : d.authn = authn := (run_adm acts (new_inv D max authn comp) (new_ainv ..) h).2.2
  refine ⟨?_, ?_⟩
  · intro i c x he hi hc hn
    subst he
    cases ha
    refine ⟨Peer.new c.uid x c.hs.reads, ?_, rfl, rfl, rfl⟩
    simp [Driver.stepConn, hi, hc, hau, hn, Driver.insertPeer]
  · intro i c x f id w rest lost he hi hc hn hh
    subst he
    cases ha
    refine ⟨Peer.new c.uid x rest, ?_, rfl, rfl, rfl⟩
    simp [Driver.stepJoin, hi, hc, hau, hn, hh, Driver.insertPeer]

/-- Three clients: the second and the third share an address, the first does not and goes on being served. -/
example (D : Decompressors) :
    let c : Nat → Nat → Conn Nat := fun u a => ⟨u, some a, ⟨[], [], [], []⟩⟩
    let rest : List (Act Nat) := [.accept (c 2 7), .ready 0 true, .accept (c 3 7), .ready 0 true]
    ∃ d d', (Driver.new none none none : Driver Nat).run D [.accept (c 1 5), .ready 0 true] = .ok d ∧ d.peers.map (·.addr) = [5] ∧
      d.connTasks ++ d.authTasks = [] ∧ (∀ x, Act.accept x ∈ rest → x.addr ≠ some 5) ∧ d.run D rest = .ok d' ∧
      d'.peers.map (·.uid) = [1, 3] ∧ d'.gone.map (·.uid) = [2] := by
  intro c rest
  refine ⟨_, _, rfl, rfl, rfl, ?_, rfl, rfl, rfl⟩
  intro x hx
  simp only [rest, List.mem_cons, Act.accept.injEq, List.not_mem_nil, or_false, reduceCtorEq, false_or] at hx
  rcases hx with rfl | rfl <;> simp [c]

end MsgRs.Props
