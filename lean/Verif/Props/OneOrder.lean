import Verif.Props.Reconnect
/-!
# C114: all subscribers of a publisher see one order
-/
namespace MsgRs.Spec
open MsgRs

/-- What happens in a network of one publisher socket and any number of subscriber sockets: something at the publisher, or at subscriber `k`. -/
inductive GroupAct (A : Type) where
  | pub (a : Pub.SrvAct A)
  | sub (k : Nat) (a : Sub.Act A)

/-- The part of a history that concerns the publisher and subscriber `k`. -/
def view {A : Type} (k : Nat) (h : List (GroupAct A)) : List (NetAct A) :=
  h.filterMap fun
    | .pub a => some (.pub a)
    | .sub j a => if j = k then some (.sub a) else none

/-- The publisher's part of a history. -/
def publisherPart {A : Type} (h : List (GroupAct A)) : List (Pub.SrvAct A) :=
  h.filterMap fun
    | .pub a => some a
    | .sub _ _ => none

/-- The calls of `publish` and `try_publish`, in the order made: topic and payload. -/
def publishedIn {A : Type} (h : List (GroupAct A)) : List (Str × Bytes) := (pubCalls (publisherPart h)).map fun c => (c.topic, c.payload)

end MsgRs.Spec

namespace MsgRs.Props
open MsgRs Spec Sub

theorem view_pub {A : Type} (k : Nat) (h : List (GroupAct A)) : pubPart (view k h) = publisherPart h := by
  unfold pubPart view publisherPart
  rw [List.filterMap_filterMap]
  congr 1
  funext x
  cases x with
  | pub a => rfl
  | sub j a =>
    simp only
    split
    · rfl
    · rfl

theorem positions {α : Type} {l P : List α} (h : l.Sublist P) : ∃ p : List Nat, p.Pairwise (· < ·) ∧ p.map (P[·]?) = l.map some := by
  induction h with
  | slnil => exact ⟨[], List.Pairwise.nil, rfl⟩
  | cons a _ ih =>
    obtain ⟨p, h1, h2⟩ := ih
    refine ⟨p.map (· + 1), List.pairwise_map.2 (h1.imp (by omega)), ?_⟩
    rw [List.map_map, ← h2]
    rfl
  | cons_cons a _ ih =>
    obtain ⟨p, h1, h2⟩ := ih
    refine ⟨0 :: p.map (· + 1), List.pairwise_cons.2 ⟨?_, List.pairwise_map.2 (h1.imp (by omega))⟩, ?_⟩
    · intro b hb
      obtain ⟨c, -, rfl⟩ := List.mem_map.1 hb
      omega
    · rw [List.map_cons, List.map_cons, List.map_map, ← h2]
      rfl

theorem nodup_order {α : Type} {P : List α} (hn : P.Nodup) {x y : α} (h1 : [x, y].Sublist P) (h2 : [y, x].Sublist P) : False := by
  have hne : x ≠ y := by
    have := hn.sublist h1
    simp only [List.nodup_cons, List.mem_singleton] at this
    exact this.1
  induction P with
  | nil => cases h1
  | cons z P ih =>
    have hz := (List.nodup_cons.1 hn).1
    cases h1 with
    | cons _ h1 =>
      cases h2 with
      | cons _ h2 => exact ih (List.nodup_cons.1 hn).2 h1 h2
      | cons_cons _ h2 => exact hz (h1.subset (by simp))
    | cons_cons _ h1 =>
      cases h2 with
      | cons _ h2 => exact hz (h2.subset (by simp))
      | cons_cons _ h2 => exact hne rfl

/-- C114: one publisher and any number of subscribers, which connect to it at any time, lose their connections and make new ones; any interleaving. There is one order of messages — that of the calls of `publish` and `try_publish` — and what the users of any two
of the subscribers get from the publisher are messages at increasing positions of it. So if no two messages published are alike, two users who both get two messages get them in the same
order. -/
theorem C114_one_order {A : Type} [DecidableEq A] (L : Lossy) (D : Decompressors) (max : Option Nat) (authn : Option (Bytes → Bool)) (boundary minCompress bufferSize : Nat) (comp : Option Compressor)
    (hcomp : ∀ c, comp = some c → Spec.Inverts D c) (H : List (GroupAct A))
    (hsmall : ∀ c ∈ pubCalls (publisherPart H), ∀ m, c.prepare minCompress comp = some m → m.payload.length < 2 ^ 32)
    -- the subscribers: how they were created, the address at which each knows the publisher, what serves its connections, where it is at the end
    (opts : Nat → Options) (now : Nat → Nat) (d0 d : Nat → Driver A) (a : Nat → A) (peer : Nat → Nat → Nat) (i j : Nat)
    (hsubs : ∀ k, k = i ∨ k = j → Driver.new (opts k) (now k) = .ok (d0 k) ∧
      OneNet L D (Pub.Server.new max authn boundary minCompress bufferSize comp) (d0 k) (a k) (peer k) (view k H) ∧
      (d0 k).run L D (subPart (view k H)) = .ok (d k)) :
    let got := fun k => (fromAddr (a k) ((d k).received ++ (d k).inbox)).map fun m => (m.topic, m.payload)
    (∃ p q : List Nat, p.Pairwise (· < ·) ∧ q.Pairwise (· < ·) ∧
      (got i).map some = p.map ((publishedIn H)[·]?) ∧ (got j).map some = q.map ((publishedIn H)[·]?)) ∧
    ((publishedIn H).Nodup → ∀ x y, [x, y].Sublist (got i) → ¬ [y, x].Sublist (got j)) := by
  intro got
  have hsub : ∀ k, k = i ∨ k = j → (got k).Sublist (publishedIn H) := by
    intro k hk
    obtain ⟨h0, hn, hr⟩ := hsubs k hk
    have := C110_reconnects L D max authn boundary minCompress bufferSize comp hcomp (opts k) (now k) (d0 k) (d k) h0 (view k H) (a k) (peer k) hn
      (by rw [view_pub]; exact hsmall) hr
    rw [view_pub] at this
    exact this
  have hi := hsub i (.inl rfl)
  have hj := hsub j (.inr rfl)
  obtain ⟨p, p1, p2⟩ := positions hi
  obtain ⟨q, q1, q2⟩ := positions hj
  exact ⟨⟨p, q, p1, q1, p2.symm, q2.symm⟩, fun hn x y hx hy => nodup_order hn (hx.trans hi) (hy.trans hj)⟩

/-! ## A case -/

namespace TwoSubs
open E2E Twice

def pubs (h : List (NetAct Nat)) : List (GroupAct Nat) := h.filterMap fun | .pub a => some (.pub a) | .sub _ => none

def start (k : Nat) : List (GroupAct Nat) :=
  [.sub k (.call (.subscribe ['a'])), .sub k (.call (.connect 5)), .sub k (.iter ⟨[], [], none⟩), .sub k (.iter ⟨[], [], none⟩)] ++ pubs Twice.accept

def uses (k : Nat) : List (GroupAct Nat) := List.replicate 4 (.sub k (.session 0 eager))

/-- Two subscribers connect, one after the other; the publisher publishes `1` (before the second one is there), `2` and `3`; both get `2` and `3`. -/
def hist : List (GroupAct Nat) :=
  [.pub (.bind some [80])] ++ start 0 ++
  [.sub 0 (.iter ⟨[5], [], conn [.pending, .pending, .pending, .pending, .data (Twice.frame 1), .data (PubSub.encode ⟨⟨0, 1, [97], 7, 1, 1⟩, [2]⟩), .data (PubSub.encode ⟨⟨0, 1, [97], 7, 2, 1⟩, [3]⟩)]⟩)] ++
  uses 0 ++ pubs (serve 0) ++ [.pub (.publish ['a'] [1])] ++ pubs (serve 0) ++ start 1 ++
  [.sub 1 (.iter ⟨[5], [], conn [.pending, .pending, .pending, .pending, .data (Twice.frame 2), .data (PubSub.encode ⟨⟨0, 1, [97], 7, 1, 1⟩, [3]⟩)]⟩)] ++
  uses 1 ++ pubs (serve 1) ++ [.pub (.publish ['a'] [2]), .pub (.publish ['a'] [3])] ++ pubs (serve 0 ++ serve 1 ++ serve 0 ++ serve 1) ++ uses 1 ++ uses 0 ++
  List.replicate 4 (.sub 0 (.iter ⟨[5], [], none⟩)) ++ List.replicate 4 (.sub 1 (.iter ⟨[5], [], none⟩))

def gotBy (k : Nat) (d : Driver Nat) : Option (List (Nat × Bytes)) :=
  match d.run Lossy.strict noDec (subPart (view k hist)) with
  | .ok e => some ((e.received ++ e.inbox).map fun m : InMsg Nat => (m.source, m.payload))
  | .panic => none

theorem hist_ok : (match (Driver.new { } 0 : R (Driver Nat)) with
    | .ok d => netOk (fun _ => 0) [5] (Pub.Server.new none none 8192 10 8 none) d (view 0 hist) && netOk (fun _ => 1) [5] (Pub.Server.new none none 8192 10 8 none) d (view 1 hist) &&
        decide (gotBy 0 d = some [(5, [1]), (5, [2]), (5, [3])]) && decide (gotBy 1 d = some [(5, [2]), (5, [3])])
    | .panic => false) = true := by decide +kernel

/-- All hypotheses of `C114_one_order` are met by this history: no two messages are alike, the users of both subscribers get `2` and `3`, and one of them also `1`. -/
example : ∃ d0 d : Nat → Driver Nat,
    (∀ k, k = 0 ∨ k = 1 → Driver.new { } 0 = .ok (d0 k) ∧
      OneNet Lossy.strict noDec (Pub.Server.new none none 8192 10 8 none) (d0 k) 5 (fun _ => k) (view k hist) ∧ (d0 k).run Lossy.strict noDec (subPart (view k hist)) = .ok (d k)) ∧
    (∀ c ∈ pubCalls (publisherPart hist), ∀ m, c.prepare 10 none = some m → m.payload.length < 2 ^ 32) ∧
    (publishedIn hist).Nodup ∧
    ((d 0).received ++ (d 0).inbox).map (fun m => (m.source, m.payload)) = [(5, [1]), (5, [2]), (5, [3])] ∧
    ((d 1).received ++ (d 1).inbox).map (fun m => (m.source, m.payload)) = [(5, [2]), (5, [3])] := by
  have hk := hist_ok
  cases h0 : (Driver.new { } 0 : R (Driver Nat)) with
  | panic => rw [h0] at hk; cases hk
  | ok d0 =>
    rw [h0] at hk
    simp only [Bool.and_eq_true] at hk
    obtain ⟨⟨⟨k1, k2⟩, k3⟩, k4⟩ := hk
    obtain ⟨n1, e1, r1⟩ := netOk_oneNet k1
    obtain ⟨n2, e2, r2⟩ := netOk_oneNet k2
    have k3 := of_decide_eq_true k3
    have k4 := of_decide_eq_true k4
    unfold gotBy at k3 k4
    rw [r1] at k3
    rw [r2] at k4
    simp only [Option.some.injEq] at k3 k4
    refine ⟨fun _ => d0, fun k => if k = 0 then e1 else e2, ?_, ?_, by decide +kernel, k3, k4⟩
    · intro k hk
      rcases hk with rfl | rfl
      · exact ⟨rfl, n1, r1⟩
      · exact ⟨rfl, n2, r2⟩
    · have hc : pubCalls (publisherPart hist) = [⟨false, ['a'], [1]⟩, ⟨false, ['a'], [2]⟩, ⟨false, ['a'], [3]⟩] := by decide +kernel
      rw [hc]
      intro c hc m hm
      have : m.payload.length = 1 := by
        simp only [List.mem_cons, List.not_mem_nil, or_false] at hc
        rcases hc with rfl | rfl | rfl <;>
        · have h := hm
          unfold PubCall.prepare publishPrepare at h
          simp at h
          rw [← h]
          rfl
      rw [this]
      decide

end TwoSubs
end MsgRs.Props
