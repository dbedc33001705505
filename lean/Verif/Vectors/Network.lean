import Verif.Concrete.Secp
import Verif.Model.Chain
/-
Two more of the repository's test vectors, replayed on the model by the kernel.
-/
set_option maxRecDepth 100000
namespace Gringo.Vectors
open Gringo.Concrete

/-- chain/chain_test.go:9-17 `TestGenesisHash` -/
theorem genesis_hash :
    (testnet4 env).hash = .ok (hex 32 0x0644cedb1acfdde4ee9e135ae61de3cbeb301b5f27a40a2c366da8e724292f20) := by
  decide +kernel

/-- p2p/message_test.go:11-39 `TestShakeParsing`: the message from a Grin node is read completely. -/
theorem shake_parsing :
    P2P.readMessage P2P.MsgTypeShake (P2P.Shake.read env)
      (hex 80 0x543402000000000000004500000001000000060000000000007530000000000000000d4d572f4772696e20302e332e30006642e037a073b89c00f48c93cf1b701b335dab84b538136f63b6feadaa50d6)
      = (.ok ({ version := 1, capabilities := 6, totalDifficulty := 30000,
                userAgent := [77, 87, 47, 71, 114, 105, 110, 32, 48, 46, 51, 46, 48],
                genesis := hex 32 0x006642e037a073b89c00f48c93cf1b701b335dab84b538136f63b6feadaa50d6 }, 80), []) := by
  decide +kernel

end Gringo.Vectors
