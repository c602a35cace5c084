import Verif.Model.TunnelTest
import Verif.Model.Pool
import Verif.Model.PoolContext
import Verif.Props.EndToEnd
import Verif.Props.Ssu2Handshake
/-!
# C289: tests of tunnels
-/
namespace Emissary.TunnelTest
open Emissary Emissary.I2np Emissary.Tunnel Emissary.Hop Emissary.Journey
open Emissary.Ssu2 (Prims)

/-! ## The test of tunnels that work -/

theorem message_size (P : Prims) (hP : P.Lawful) (hsha : ∀ b, (P.sha b).length = 32) (now : Duration) (id : Nat) (sk esk : Bytes) :
    ∃ payload, message P now id sk esk = some ((Message.mk .garlic id (now + TBuild.i2npExpiration) payload).serializeStandard P.sha) ∧ payload.length = 103 ∧
      (payload.drop 4).take 8 = (P.pub esk).take 8 := by
  refine ⟨_, rfl, ?_, ?_⟩
  · have ht : text.length = 15 := by decide +kernel
    simp only [List.length_append, be_length, hP.pub]
    rw [show ∀ k n ad p, (P.seal k n ad p).length = p.length + 16 from fun k n ad p => hP.crypto.aead.len ..]
    simp only [Message.serializeStandard, Garlic.Delivery.serialize, List.length_append, be_length, List.length_take, hsha, ht]
    decide
  · rw [List.append_assoc, List.drop_left' (be_length ..), List.take_append_of_le_length (by rw [hP.pub]; decide)]

theorem routed (chk : Bool) (c : PoolCtx.Ctx) (id ch : Nat) (hc : c.listeners.get id = some ch) (hg : ch ∉ c.gone) (expiration : Duration) (payload : Bytes)
    (hl : 12 ≤ payload.length) (ht : c.tags.get ((payload.drop 4).take 8) = none) : (c.route chk ⟨.garlic, id, expiration, payload⟩).2 = .listener ch := by
  have h : ¬ payload.length < 12 := by omega
  simp only [PoolCtx.Ctx.route, h, if_false, ht, hc, PoolCtx.Ctx.deliver, hg]

/-- **C289**, in part: when both tunnels carry messages, the test of them succeeds: its message is made, fits into one tunnel message, which is sent to the first router
of the outbound tunnel, crosses both tunnels, and is given to the test, if it is not too late and the first bytes of the new public key are not by chance those of a reply that is
waited for. -/
theorem C289_succeeds_partial {A : Aes} (hA : A.Lawful) (P : Prims) (hP : P.Lawful) (hsha : ShaOk P.sha) (chk : Bool) (O : OutTunnel) (hO : O.Ok) (I : InTunnel) (hI : I.Ok)
    (s : Sending) (hs : s.Ok) (tid : Nat) (htid : tid < 2 ^ 32) (gateway : Bytes) (hh : gateway.length = 32) (id : Nat) (hid : id < 2 ^ 32) (sk esk : Bytes) :
    ∃ bytes o M, message P s.now id sk esk = some bytes ∧
      sends A P.sha (O.stops.map (·.next.keys) ++ [O.last]) O.router O.first (paddingBytes O.random) tid gateway bytes s.now s.ids s.rnd = some o ∧ o.router = O.router ∧
      ownerSends A P.sha (O.stops.map (·.next.keys) ++ [O.last]) O.router O.first (paddingBytes O.random) (.tunnel tid gateway) bytes s.now s.ids s.rnd = [o] ∧
      Crosses A P.sha chk O I s tid gateway bytes M ∧
      ∀ (c : PoolCtx.Ctx) (ch : Nat), c.listeners.get id = some ch → ch ∉ c.gone → c.tags.get ((P.pub esk).take 8) = none → (c.route chk M).2 = .listener ch := by
  obtain ⟨payload, h1, h2, h3⟩ := message_size P hP hsha s.now id sk esk
  have hne : payload ≠ [] := by intro h; rw [h] at h2; cases h2
  have hx := enclose_crosses hA P.sha hsha chk O hO I hI s hs tid htid gateway hh id hid payload hne (by omega)
  have henc : enclose P.sha s.now id payload = (Message.mk .garlic id (s.now + TBuild.i2npExpiration) payload).serializeStandard P.sha := rfl
  rw [henc] at hx
  generalize hb : (Message.mk .garlic id (s.now + TBuild.i2npExpiration) payload).serializeStandard P.sha = bytes at h1 hx
  have hsha' : ∀ b, (P.sha b).length = 32 := hsha
  have hlen : bytes.length = 119 := by
    rw [← hb]
    simp only [Message.serializeStandard, List.length_append, be_length, List.length_take, hsha', h2]
    decide
  have hl1 : (ownerSends A P.sha (O.stops.map (·.next.keys) ++ [O.last]) O.router O.first (paddingBytes O.random) (.tunnel tid gateway) bytes s.now s.ids s.rnd).length = 1 := by
    simp only [ownerSends, List.length_mapIdx, build_length, cut]
    rw [if_pos (by simp only [DI.len]; omega)]
    rfl
  obtain ⟨o, ho⟩ := List.length_eq_one_iff.mp hl1
  refine ⟨bytes, o, _, h1, by unfold sends; rw [ho]; rfl, hx.1 o (by rw [ho]; exact List.mem_singleton.mpr rfl), ho, hx, ?_⟩
  intro c ch hc hg ht
  exact routed chk c id ch hc hg _ payload (by omega) (by rw [h3]; exact ht)

/-- Success proves little: whoever has seen the number of a test ends it well with any garlic message under this number, whatever is in it, and by whatever tunnel
of the pool it comes. -/
theorem C289_forged_violated (chk : Bool) (c : PoolCtx.Ctx) (id ch : Nat) (hc : c.listeners.get id = some ch) (hg : ch ∉ c.gone) (expiration : Duration) (payload : Bytes)
    (hl : 12 ≤ payload.length) (ht : c.tags.get ((payload.drop 4).take 8) = none) : (c.route chk ⟨.garlic, id, expiration, payload⟩).2 = .listener ch :=
  routed chk c id ch hc hg expiration payload hl ht

/-! ## What becomes of tunnels whose tests fail -/

/-- The pool without the tests that are under way. -/
def untested (s : Pool.State) : Pool.State := { s with tests := [] }

theorem emit_untested (s : Pool.State) (e : Pool.Event) : untested (s.emit e) = (untested s).emit e := rfl

theorem fire_untested (now : Nat) (s : Pool.State) (x : Nat × Pool.Timer) : untested (s.fire now x) = (untested s).fire now x := by
  obtain ⟨d, t⟩ := x
  by_cases h : ¬ (d, t) ∈ s.timers ∨ now < d
  · have h' : ¬ (d, t) ∈ (untested s).timers ∨ now < d := h
    simp only [Pool.State.fire, if_pos h, if_pos h']
  · have h' : ¬ (¬ (d, t) ∈ (untested s).timers ∨ now < d) := h
    simp only [Pool.State.fire, if_neg h, if_neg h']
    cases t <;> rfl

theorem fires_untested (now : Nat) (l : List (Nat × Pool.Timer)) (s : Pool.State) : untested (l.foldl (Pool.State.fire now) s) = l.foldl (Pool.State.fire now) (untested s) := by
  induction l generalizing s with
  | nil => rfl
  | cons x l ih => rw [List.foldl_cons, List.foldl_cons, ih, fire_untested]

theorem maintain_untested (s : Pool.State) (i : Pool.Input) (tests : List Pool.Test) (tested : List Pool.Test) :
    untested ({ s with tests }.maintain { i with tested }) = untested (s.maintain i) := by
  simp only [Pool.State.maintain, Pool.State.outCount, Pool.State.inCount]
  split <;> rfl

theorem finish_untested (s : Pool.State) (i : Pool.Input) (tests : List Pool.Test) (tested : List Pool.Test) :
    untested ({ s with tests }.finish { i with tested }).1 = untested (s.finish i).1 ∧ ({ s with tests }.finish { i with tested }).2 = (s.finish i).2 := by
  unfold Pool.State.finish
  simp only
  split
  · exact ⟨rfl, rfl⟩
  split
  · exact ⟨maintain_untested { s with maintenance := i.now + Pool.maintenanceInterval } i tests tested, rfl⟩
  split
  · exact ⟨maintain_untested s i tests tested, rfl⟩
  · exact ⟨rfl, rfl⟩

theorem fires_tests (now : Nat) (l : List (Nat × Pool.Timer)) (s : Pool.State) (tests : List Pool.Test) :
    ∃ tests', l.foldl (Pool.State.fire now) { s with tests } = { l.foldl (Pool.State.fire now) s with tests := tests' } := by
  have h := fires_untested now l { s with tests }
  have h' := fires_untested now l s
  have e : untested { s with tests } = untested s := rfl
  rw [e, ← h'] at h
  refine ⟨(l.foldl (Pool.State.fire now) { s with tests }).tests, ?_⟩
  generalize l.foldl (Pool.State.fire now) { s with tests } = x at h ⊢
  generalize l.foldl (Pool.State.fire now) s = y at h ⊢
  cases x; cases y
  simp only [untested, Pool.State.mk.injEq] at h ⊢
  simp_all

/-- A tunnel whose tests fail is used as before: whichever tests end at a poll, and so whatever came of them, the pool has afterwards the same tunnels, offers the same
for use, keeps the same timers, builds the same and tells its owner the same. -/
theorem C289_still_used_violated (s : Pool.State) (i : Pool.Input) (tested : List Pool.Test) :
    untested (s.poll false { i with tested }).1 = untested (s.poll false i).1 ∧ (s.poll false { i with tested }).2 = (s.poll false i).2 := by
  unfold Pool.State.poll
  split
  · exact ⟨rfl, rfl⟩
  simp only [Bool.false_and, Bool.false_eq_true, if_false]
  split
  · exact ⟨rfl, rfl⟩
  have hr : s.results { i with tested } = s.results i := rfl
  rw [hr]
  generalize s.results i = t
  obtain ⟨a, ha⟩ := fires_tests i.now i.fired t (t.tests.filter (· ∉ tested.filter (· ∈ t.tests)))
  obtain ⟨b, hb⟩ := fires_tests i.now i.fired t (t.tests.filter (· ∉ i.tested.filter (· ∈ t.tests)))
  rw [ha, hb]
  have h1 := finish_untested (i.fired.foldl (Pool.State.fire i.now) t) i a tested
  have h2 := finish_untested (i.fired.foldl (Pool.State.fire i.now) t) i b i.tested
  exact ⟨h1.1.trans h2.1.symm, h1.2.trans h2.2.symm⟩

end Emissary.TunnelTest
