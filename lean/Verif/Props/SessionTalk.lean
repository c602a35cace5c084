import Verif.Props.SessionPair
/-!
# Garlic sessions: what is sent arrives
-/
namespace Emissary.Ecies
open Emissary Emissary.I2np Emissary.Garlic
open Emissary.Ssu2 (Prims)
open Emissary.Ntcp2 (unle le)
open Emissary.Ratchet

/-! ## C115: sending -/

/-- The manager has a session with `d` and has sent `i` messages with the tag set with chain `c` and id `k`. -/
def Sending (C : Cfg) (m : Mgr) (d : Bytes) (c : Chain) (k i : Nat) (a : Active) : Prop :=
  m.active.get d = some a ∧ a.s.send.chain = c.iter C.P i ∧ a.s.send.index = i ∧ a.s.send.id = k ∧ a.s.pendingKey = none

/-- What is sent along with data: acknowledgments that are due, and the lease set if the peer may not have it. -/
def extras (v : Draw) (own : Bytes) (a : Active) : List Block :=
  (if a.inAcks = [] then [] else [.ack a.inAcks]) ++
    match a.leaseSet with
    | none => []
    | some ls => [.clove .databaseStore (v.ids 1) (v.epoch + 8 * 1000000000) .localNode (storeBuild own (.leaseSet2 ls) .none), .ackRequest]

/-- The clove with data for a destination. -/
def dataFor (v : Draw) (d msg : Bytes) : Block := .clove .data (v.ids 0) (v.epoch + 8 * 1000000000) (.destination d) (be 4 msg.length ++ msg)

/-- C115: as long as no ratchet is due, the `i`-th message of a session is sealed with the `i`-th entry and contains the data, what is due besides and
nothing else; the next message uses the next entry. -/
theorem C115_sent_partial {C : Cfg} {m : Mgr} {d : Bytes} {c : Chain} {k i : Nat} {a : Active} (h : Sending C m d c k i a) (hi : i < ratchetThreshold)
    (v : Draw) (msg : Bytes) (hok : ∀ b ∈ dataFor v d msg :: extras v m.id a, b.Ok) :
    ∃ out a' m', m.encrypt C v d msg = (.ok out, m') ∧ Genuine C c k i ((dataFor v d msg :: extras v m.id a).map Block.onWire) out ∧ Sending C m' d c k (i + 1) a' ∧
      a'.inAcks = [] ∧ a'.leaseSet = a.leaseSet ∧ a'.s.entries = a.s.entries ∧ a'.s.recv = a.s.recv ∧ m'.tags = m.tags ∧ m'.id = m.id ∧ m'.ctx = m.ctx := by
  obtain ⟨ha, h1, h2, h3, h4⟩ := h
  obtain ⟨plain, hb, hp⟩ := C22_garlic_message_roundtrip _ (List.cons_ne_nil _ _) hok
  have hi' : i < 20000 := hi
  have hlt : a.s.send.index + 1 < 2 ^ 16 := by omega
  have hn : a.s.send.next C.P = (some (c.entry C.P k i), { a.s.send with index := i + 1, chain := c.iter C.P (i + 1) }) := by
    rw [TagSet.next, if_pos hlt]
    simp only [Chain.entry, h1, h2, h3, Chain.iter]
  have hg : TagSet.tryGenerate C.P C.chk (v.keys 0) { a.s.send with index := i + 1, chain := c.iter C.P (i + 1) } =
      (.ok none, { a.s.send with index := i + 1, chain := c.iter C.P (i + 1) }) := by
    rw [TagSet.tryGenerate, if_pos]
    exact hi
  have hes : a.s.encrypt C v (dataFor v d msg :: extras v m.id a) =
      (.ok (k, i, Entry.seal C.P (c.entry C.P k i) plain), { a.s with send := { a.s.send with index := i + 1, chain := c.iter C.P (i + 1) } }) := by
    simp only [Sess.encrypt, hn, hg, h4, Option.toList_none, List.map_nil, List.append_nil, hb]
    simp only [Chain.entry, h4]
  simp only [Mgr.encrypt, ha]
  generalize hbs : ([dataClove v 0 d msg] ++ (if a.inAcks.isEmpty then [] else [Block.ack a.inAcks])) ++ _ = bs
  have hbs : bs = dataFor v d msg :: extras v m.id a := by
    rw [← hbs]
    simp only [extras, List.isEmpty_iff, List.cons_append, List.nil_append]
    cases a.leaseSet <;> rfl
  rw [hbs, hes]
  have hnk : ∀ kind, Block.nextKey kind ∉ (dataFor v d msg :: extras v m.id a).map Block.onWire := by
    intro kind hk
    obtain ⟨b, hb, he⟩ := List.mem_map.mp hk
    have hbk : b = .nextKey kind := by
      cases b <;> simp only [Block.onWire] at he
      all_goals first
        | exact he
        | cases he
    subst hbk
    simp only [dataFor, extras, List.mem_cons, List.mem_append] at hb
    rcases hb with hb | hb | hb
    · cases hb
    · split at hb <;> simp at hb
    · split at hb <;> simp at hb
  refine ⟨_, _, _, rfl, ⟨plain, hp, hnk, rfl⟩, ⟨Assoc.get_put .., ?_⟩, ?_⟩
  · split <;> exact ⟨rfl, rfl, h3, h4⟩
  · split <;> exact ⟨rfl, rfl, rfl, rfl, rfl, rfl, rfl⟩

/-! ## C115: what is sent arrives -/

/-- Sending messages one after the other. -/
def sendOuts (C : Cfg) (d : Bytes) : Mgr → List (Draw × Bytes) → Option (List Bytes × Mgr)
  | m, [] => some ([], m)
  | m, x :: l => match m.encrypt C x.1 d x.2 with
    | (.ok out, m) => (sendOuts C d m l).map fun r => (out :: r.1, r.2)
    | _ => none

/-- Receiving messages one after the other. -/
def recvOuts (C : Cfg) : Mgr → List (Draw × Bytes) → List (Out (List Clove)) × Mgr
  | m, [] => ([], m)
  | m, x :: l => let r := m.decrypt C x.1 x.2; let q := recvOuts C r.2 l; (r.1 :: q.1, q.2)

/-- What a message with data is received as: expirations are whole seconds. -/
def received (d : Bytes) (x : Draw × Bytes) : Clove :=
  { type := .data, id := x.1.ids 0, expiration := (x.1.epoch + 8 * 1000000000) / 1000000000 * 1000000000, delivery := .destination d,
    body := be 4 x.2.length ++ x.2 }

/-- A message that can be sent. -/
def Fits (d : Bytes) (x : Draw × Bytes) : Prop :=
  x.1.ids 0 < 2 ^ 32 ∧ (x.1.epoch + 8 * 1000000000) / 1000000000 < 2 ^ 32 ∧ d.length = 32 ∧ x.2.length + 50 < 2 ^ 16

theorem sendOuts_spec {C : Cfg} {d : Bytes} {c : Chain} {k : Nat} (l : List (Draw × Bytes)) : ∀ {m : Mgr} {i : Nat} {a : Active},
    Sending C m d c k i a → a.inAcks = [] → a.leaseSet = none → i + l.length ≤ ratchetThreshold → (∀ x ∈ l, Fits d x) →
    ∃ outs m' a', sendOuts C d m l = some (outs, m') ∧ outs.length = l.length ∧ Sending C m' d c k (i + l.length) a' ∧
      ∀ j x out, l[j]? = some x → outs[j]? = some out → Genuine C c k (i + j) [(dataFor x.1 d x.2).onWire] out := by
  induction l with
  | nil => intro m i a h _ _ _ _; exact ⟨[], m, a, rfl, rfl, h, by simp⟩
  | cons x l ih =>
    intro m i a h hA hL hi hf
    simp only [List.length_cons] at hi
    have hx := hf x List.mem_cons_self
    have hex : extras x.1 m.id a = [] := by simp [extras, hA, hL]
    obtain ⟨out, a1, m1, h1, h2, h3, h4, h5, _⟩ := C115_sent_partial h (by omega) x.1 x.2 (by
      rw [hex]
      intro b hb
      simp only [List.mem_singleton] at hb
      subst hb
      obtain ⟨f1, f2, f3, f4⟩ := hx
      exact ⟨f1, f2, f3, by simp only [List.length_append, be_length]; omega⟩)
    rw [hex] at h2
    obtain ⟨outs, m', a', e1, e2, e3, e4⟩ := ih h3 h4 (h5.trans hL) (by omega) (fun y hy => hf y (List.mem_cons_of_mem _ hy))
    refine ⟨out :: outs, m', a', by simp only [sendOuts, h1, e1, Option.map_some], by simp [e2], ?_, ?_⟩
    · have : i + (x :: l).length = i + 1 + l.length := by simp only [List.length_cons]; omega
      rw [this]; exact e3
    · intro j y o hy ho
      cases j with
      | zero => simp only [List.getElem?_cons_zero, Option.some.injEq] at hy ho; subst hy ho; exact h2
      | succ j =>
        simp only [List.getElem?_cons_succ] at hy ho
        have := e4 j y o hy ho
        rw [show i + (j + 1) = i + 1 + j by omega]; exact this

/-- C115: a list of messages that is sent in a session arrives: whatever order they come in and whichever are lost, every message that comes is read,
and what is read is the data that was sent. (The messages are ones the receiver watches for; with the code's numbers that are the next 4096 and one
more for each that came. Neither side is in a ratchet, and there is nothing to acknowledge.) -/
theorem C115_delivery_partial {C : Cfg} (hP : C.P.Lawful) {m n : Mgr} {idm idn : Bytes} {c : Chain} {k i : Nat} {a : Active} {w : Window}
    (hs : Sending C m idn c k i a) (hA : a.inAcks = []) (hL : a.leaseSet = none) (hw : Watching C n idm c k w) (hd : Distinct C.P c)
    (l : List (Draw × Bytes)) (hi : i + l.length ≤ ratchetThreshold) (hf : ∀ x ∈ l, Fits idn x) (hr : ∀ j < l.length, w.readable (i + j)) :
    ∃ outs m', sendOuts C idn m l = some (outs, m') ∧ outs.length = l.length ∧
      ∀ js : List (Draw × Nat), (js.map (·.2)).Nodup → (∀ x ∈ js, x.2 < l.length) →
        (recvOuts C n (js.map fun x => (x.1, (outs[x.2]?).getD []))).1 = js.map fun x => .ok ((l[x.2]?.map (received idn)).toList) := by
  obtain ⟨outs, m', a', h1, h2, _, h4⟩ := sendOuts_spec l hs hA hL hi hf
  refine ⟨outs, m', h1, h2, ?_⟩
  intro js
  have key : ∀ (js : List (Draw × Nat)) (n : Mgr) (w : Window), Watching C n idm c k w → (js.map (·.2)).Nodup → (∀ x ∈ js, x.2 < l.length) →
      (∀ x ∈ js, w.readable (i + x.2)) →
      (recvOuts C n (js.map fun x => (x.1, (outs[x.2]?).getD []))).1 = js.map fun x => .ok ((l[x.2]?.map (received idn)).toList) := by
    intro js
    induction js with
    | nil => intros; rfl
    | cons x js ih =>
      intro n w hw hn hlt hrd
      have hx := hlt x List.mem_cons_self
      have hxo : x.2 < outs.length := by omega
      have hg := h4 x.2 l[x.2] outs[x.2] (List.getElem?_eq_getElem hx) (List.getElem?_eq_getElem hxo)
      obtain ⟨n', e1, e2⟩ := C115_readable_partial hP hw hd (hrd x List.mem_cons_self) x.1 hg
      simp only [List.map_cons, List.nodup_cons] at hn
      have := ih n' _ e2 hn.2 (fun y hy => hlt y (List.mem_cons_of_mem _ hy)) (by
        intro y hy
        have hne : y.2 ≠ x.2 := fun he => hn.1 (he ▸ List.mem_map_of_mem (f := (·.2)) hy)
        have hy' := hlt y (List.mem_cons_of_mem _ hy)
        have : i + l.length ≤ 20000 := hi
        rw [readable_take hw.le (hrd x List.mem_cons_self) (by omega)]
        exact .inl ⟨hrd y (List.mem_cons_of_mem _ hy), by omega⟩)
      simp only [List.map_cons, recvOuts]
      rw [List.getElem?_eq_getElem hxo, Option.getD_some, e1]
      simp only [this]
      rw [List.getElem?_eq_getElem hx]
      rfl
  exact fun hn hlt => key js n w hw hn hlt fun x hx => hr _ (hlt x hx)

/-- A manager that sends with the sample tag set. -/
def sampleSender : Mgr := { Mgr.new sampleCfg [1] [2] [3] with
  active := [(idB, Active.new 0 { nsr := none, recv := TagSet.new countPrims [5] [6], send := { chain := sampleChain, index := 0 }, entries := [] })] }

theorem sample_sending : ∃ a, Sending sampleCfg sampleSender idB sampleChain 0 0 a ∧ a.inAcks = [] ∧ a.leaseSet = none :=
  ⟨_, ⟨rfl, rfl, rfl, rfl, rfl⟩, rfl, rfl⟩

/-- Three messages, of which the first two come in the other order. -/
example (v : Draw) (hv : v.ids 0 < 2 ^ 32) (he : (v.epoch + 8 * 1000000000) / 1000000000 < 2 ^ 32) : ∃ outs m', sendOuts sampleCfg idB sampleSender [(v, [1]), (v, [2]), (v, [3])] = some (outs, m') ∧
    (recvOuts sampleCfg (sampleMgr sampleCfg) ([(v, 1), (v, 0)].map fun x => (x.1, (outs[x.2]?).getD []))).1 = [.ok [received idB (v, [2])], .ok [received idB (v, [1])]] := by
  obtain ⟨a, h1, h2, h3⟩ := sample_sending
  obtain ⟨outs, m', e1, _, e3⟩ := C115_delivery_partial countPrims_lawful h1 h2 h3 sample_watching sampleChain_distinct [(v, [1]), (v, [2]), (v, [3])] (by simp [ratchetThreshold])
    (by intro x hx
        simp only [List.mem_cons, List.not_mem_nil, or_false] at hx
        rcases hx with rfl | rfl | rfl <;> exact ⟨hv, he, rfl, by simp⟩)
    (by intro j hj; simp only [List.length_cons, List.length_nil] at hj; exact ⟨by simp; omega, by simp⟩)
  exact ⟨outs, m', e1, e3 [(v, 1), (v, 0)] (by simp) (by simp)⟩

end Emissary.Ecies
