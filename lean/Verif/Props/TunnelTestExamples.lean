import Verif.Props.TunnelTest
import Verif.Props.EndToEndExamples
import Verif.Props.PoolExamples
/-!
# Examples for tests of tunnels
-/
namespace Emissary.TunnelTest
open Emissary Emissary.I2np Emissary.Tunnel Emissary.Hop Emissary.Journey

/-- The sample primitives with the sample hash of tunnels. -/
def toyPrims : Ssu2.Prims := { Ratchet.samplePrims with sha := toySha }
theorem toyPrims_lawful : toyPrims.Lawful := ⟨Ecies.samplePrims_lawful.crypto, Ecies.samplePrims_lawful.dh, Ecies.samplePrims_lawful.pub⟩

/-- A test of the sample tunnels. -/
example := C289_succeeds_partial toyAes_lawful toyPrims toyPrims_lawful toySha_ok true toyOut toyOut_ok toyIn toyIn_ok toySend toySend_ok 5 (by decide) toyHash (by decide) 77 (by decide)
  [3] [4]

/-- Number 77 is waited for by channel 2. -/
def waiting : PoolCtx.Ctx := { listeners := [(77, 2)] }
example : (waiting.route true ⟨.garlic, 77, 9000000000, List.replicate 12 0⟩).2 = .listener 2 :=
  C289_forged_violated true waiting 77 2 (by decide) (by decide) _ _ (by decide) rfl

/-- A test of the sample pool ends, or does not: the tunnels are the same. -/
example := C289_still_used_violated ((Pool.State.init 2 2 0).run true Pool.testing) { now := 17000 } [⟨5, 30, 16000⟩]
example : ((((Pool.State.init 2 2 0).run true Pool.testing).poll false { now := 17000, tested := [⟨5, 30, 16000⟩] }).1).tests = [⟨1, 40, 16000⟩] ∧
    ((((Pool.State.init 2 2 0).run true Pool.testing).poll false { now := 17000, tested := [⟨5, 30, 16000⟩] }).1).selOut =
      ((Pool.State.init 2 2 0).run true Pool.testing).selOut := by decide +kernel

end Emissary.TunnelTest
