import Verif.Evm.StarkVerifier
import Verif.Stark.ChannelLemmas

/-!
# Two proofs, for the examples of C79

The hash function is a toy: it depends on all bytes of the input but resists nothing.  `genuine` is a proof for a true claim, `forged` one for a false claim.  Both were made with a script.
-/

namespace OpenZKP
namespace Props
namespace EvmVerifier
namespace Example
open Evm Evm.StarkVerifier Stark

/-- the first half of the toy hash -/
def absorbBytes (b : Bytes) : Nat := b.foldl (fun h x => (h * 0x100000001b3 + x.toNat + 1) % 2 ^ 256) 0

/-- the second half of the toy hash -/
def stir (h : Nat) : Nat :=
  let h := (h * h + 0x9e3779b97f4a7c15 * h) % (2 ^ 256 - 189)
  (h * h + h / 2 ^ 128) % (2 ^ 256 - 189)

/-- the toy hash -/
def toyKeccak : Keccak := ⟨fun b => to_be_bytes 32 (stir (absorbBytes b)), fun b => to_be_bytes_length _ _⟩

/-- zeros in the memory, and gas -/
def surroundings : Surroundings where
  gas := 100
  trace := ⟨2000, fun _ => List.replicate 32 0, List.replicate 32 0, List.replicate 32 0⟩
  constraint := ⟨2000, fun _ => List.replicate 32 0, List.replicate 32 0, List.replicate 32 0⟩
  fri _ := ⟨2000, fun _ => List.replicate 32 0, List.replicate 32 0, List.replicate 32 0⟩
  leaves := List.replicate 20 (List.replicate 32 0)

/-- zeros behind the arrays -/
def nothing : DefaultCs.Behind := ⟨fun _ => 0, fun _ => 0, fun _ => 0, fun _ => 0⟩

/-- a true claim: the value at 3 in the run that starts with 1 and 5 -/
def trueInput : Recurrence.PublicInput := ⟨0x7fffffffff805f0ffffffffffffffffffffffffffffffffffffffffffff87e1, 3⟩

/-- a false claim: the value at 3 is 3, which is no square -/
def falseInput : Recurrence.PublicInput := ⟨0x7fffffffffff9b0ffffffffffffffffffffffffffffffffffffffffffffffa1, 3⟩

/-- a proof of the true claim -/
def genuine : StarkProof where
  public_inputs := []
  trace_values := [0x5c7ac549dcf5d402400ef0425fdd7af231ee82885f9af46c03fbeae816232b, 0x6641cc9935025491764fec918049b49ed5292016554fffa988b33271a9cd8f9, 0x628a7996d64f75d658de1ed162c9c3f66984b615352581e79194fb5e97b1976, 0x3b75302596432bb1d71cdc01d7ff0a86ba46a01202a7dc1f71e371311cc0c3, 0x71058054bac00ff2490c2336e218a811b3bc847f18e9d2b6da4c35b4d64b014, 0x5f5255037d66266680ffa07f30baf68fa616376d57d6b38b53c025b3f6501d8, 0x48b214a58f6ff6c7feb4bf314df73024d424165126254fd6d001675f34dabc4, 0x3b503faa0073608ada8255d354b4228482f5af660d45873a5fc758e522c70ae, 0x68ae6cd40d86676ad6b56d5c5ccb0ac9189e93fe573a90e61bb61b001602a12, 0x41ed6a714d624c8071a70ab45eb73d94e12bd66b938a1adb29374b42bccda05, 0x59a5a4006140d43cc9b41c03302cf1195beaefd6600c7dfe80ef2015c21a84, 0x6f26f4b87bcad6ff3bb1e30908d01c61087e3d2fa350d30640f21bc1187036e, 0x29f59e089c41ea71c3aee82103917fa5510dcd3996d734edd752e77ca63a980, 0x661ddfe7c5837f99dec647d46631e023cb50199d30972d4aab2fec61ca15219, 0x6d89ddc0abdef811b5805afe4926cdc749ba76e73d95c14eb4b1d06f2e2a1a1, 0xf2bec9f90d483443b5b1b30345c5cd7ae371e01df1b7e914659be002dd5347, 0x192aa97013ad7c23a4f6d38ff966c6f50959964af46f439098f4654040192de, 0x5b2d44d06dc3789cd46715cc33acc6b1ea014c66297d66387e0496969acc073, 0x5fdff7c0b09efd5d4d65bf06e400650924a0cb700d8c53f07346c856dd476a, 0x7bf384e5035c31ec27a5d4d4a5fa8f7357e6f3d2671adfd02307ee6658f5a0e, 0x1618eb08106036aca0f4c862bcb40d0c01b7b8bae835683c0e46cf21b8f5582, 0x1ae1c3f3cfbb01b3e6a9800e29aa0d3c8c34a9efc1512ee88117a1990b91aba, 0xda458fbbbb94dea9d3a432b873761ddba283f59e9088abdad7ad36ab64a2cb, 0x4f848695a96ea0ab5df5f03b364e192da824fc862cf8335486a253fcecbaba0, 0x5ae685fa3debb5ca86e4ae3f545b11406737f8561b200d1ecf4d82fb17ab2a0, 0x5ee903dc981f7ef1a9ebf9e3a8fb97254125fb20622a05d837d3011df94f60e, 0x6f8a30917aee555e9708058da29d894143e55c9158ba9c3f248a88b94706e39, 0x3cccd5f7d2aa79d69c69112e6f415d25789b9b9825b50beb64da3aa541842d2, 0x68fb48fd10adb0d9bc49e2c2a00efa0a9113f7621bed397c4a0068710305271, 0x75a6bbfaf6454ad134aff34fd9d84454701c1e13a055337382fe744f0dede0a, 0xdc34e6facfad04f5fc72cfd73ca315d65ea78c1d0732cd4ff2003f3458cc2f, 0x4e768c0d465967671f111cf3e1d9a12d7e2c3dadf7817f62e4190e3acb90885, 0x21c64780c54cd876063a738417c66b8fef360a5800fa6b397a450e36a04e1f4, 0x2a4627fd39dc9304fa767b09ec3008a4fa5919c13584fe9efb096c243d1784, 0x32016883dc9e27bd95df2d8e8a5ab22d092dc8ce886cded7a200b56136f448c, 0x1a1dcda2e20567b2e5e8d5e3eefa4f636df7469b1bd3197b59b521d3f9b7305, 0x78c9460759337a82e19d6b641eb8c7e286044e059b82372d5af2a44a6c2a94, 0x5633b098b59510f3df3aea94f313129fe35eeea8d22335ee72d6831ed5e8a46, 0x24abbb9ae7f9eb3435cc88371bf355c4df3be7f91ce0927c0e0b122381f2f0d, 0xd0a1f4494b94538eb34d7d67f2f9d725f04391ffeb160ac43c3c44aec8dd92]
  trace_commitment := bytes32 0x53acfc5593aa9523609a2b33bf6fb38fb1ea2c11000000000000000000000000
  constraint_values := [0x31d13487f497cdf80da95bf338591e20a3b2b2b73dd49a89425892f6eda6a40, 0x365853c92fa9dc21bf650287f4243eb1f31677187e4dc99148fac223af48c82, 0x5b254608b8fafa16d49fed4d2b1ff59a6a8cf233da638fefa9407aafce8a84d, 0x2b03b24d4b7ca6f83bcca845a76a6354f4656199ded46074d9e2fd3fb13d107, 0x21209d641e90e02fac96e8ee1eed838a2e000e8bc6ce0c56b863c2203876154, 0x7024fc62490deb8f9d5170ec4a3d24108eee365c53ea1f224e7d610c15d8a4, 0x4a7ab9bdbba68752b6954bc8c84b33b1fe4bb2ee87274a2d28f1cb22129c7d9, 0x56e83bdff3a8113a302b97e4b3bca01204863629eb532f68ab79f7ed4d07141, 0x62182f2be2bafb6368bf2a2957ad80afa748916c8966abc0bb533ebede1c7f6, 0x6c1b1953bad58e03510349aed377eb26ddd4aeabec98bfddee327e62004d9d7, 0x56d21dc265888b675a3b5434f7325dc4015a0c39b91dda02b2dba0f0b1e79e1, 0x75c310784985bf340d68a2a71d95e518d35623c8c66150b7dbad3a2234918d0, 0x3f2952104911178d9c1ce345578cff316e1a73c46d975675f0be45d7297ea51, 0x23241053b9e2285fce35520756bcf1225db29f611db88d7181af00596a5e6f7, 0x12f13c2b2ea9f169d8b7608ef16c9b41a1e8cc21ef1a95ae1f534626427cce2, 0x2ee4c090a359b755e7ded1159c42a9a705086976feb069a61adef2a53da2cc, 0x573a32348e3ea585ec5d408ffb16699eecac7068403c23508cc1aad9766e288, 0x2740569348aea1d4f14e48c5f69af0856ee08425ffefa159f13b370b3462210, 0x269c679bfaf21016f7984e7b9fd4b4e28575f6b80e0b14c255fba46549bc197, 0x3848a24a4be103f32967b840928f90ea463f1b913e536dc5d0f67f3efb35240, 0x7c462d9f127e299d94417858ab088f88183757031607f86bb562018d85123c, 0x206aac444f24c73c7ba39a87f15bebbcc63a5b80e2011865803f4d30f0d0ec3, 0x3c183f05a64daabb57b6f630fe91b967aa403d1d2550eda7f5e2035f32a9b92, 0x2fb6e603a3b4bfece98b57846fb2c14c482b33969c69754e28f0b09c7634a52, 0x46d527153aaa3536c48dc2df24022eeb4b96bc9dbad9f9a70d33e50eecc28df, 0x23806e5fe03b5e5fb0af454ec509017a80d66d44da88185cf86eb100b1421ec, 0x1455122283cc804308b8436847c2ca2e8bbc366fa9658478754c42f6f234047, 0x4fd84ba37ab84deba815261fa1161a2c0a9240db3dacc71f7e8668bcd712fcd, 0xfe58201d181106cacdc3b14fb2786c29962c9ca5cf03b909f927556ded3e4e, 0x3de1c75b015d1eab40355970798a4025a70205bcb72b20d35b75862c1961bc7, 0x4c08744b0744b05d017b50ea1394ef810bcc8e95d75cfa9ca59be83b2aec1a9, 0x4a0817391a5fe384b58cef40d42e7f850ad3b962ea390416229af1133b5527a, 0x67e20ab2d455011cf9f15951efa38b3b8bc115580c4b7165bef897a9a7a5600, 0x5dfdb2c47c4946986fde34c259bedc7f184022f764875b0d9abf23ddfa148a1, 0x4eceb4ed8b805fb9ae990f592a09d45f6c77e5273e9770024ecb5b68506798f, 0xfd25ac77bffb11cf979ed8c0252ab4ff1e61dfc65c68df46dd5e56e2e34ae7, 0x64fe251679947cdcd23efbfbb708c53390dc92efe48f9008508e310f50daa98, 0x53a3ab2c4263f266ef973f2cbdc776019b996f6cbe27e5f110c3067843c80f7, 0x3eb2bd7578132c0b2cb100fa1c36ce10c6839b4c6640b21ed5c66d6f97f1b68, 0x2795db6c9eb89a377d5d48f7cf578e8e27e56c4d226f8c4ff5f75b569a6d93b]
  constraint_commitment := bytes32 0x6a87b8f4341deaac9a22b9892d57e2be7621d8db000000000000000000000000
  trace_oods_values := [0x252213e52dc0ea33ddcf058d89b9ce695e6e6f2e9584773dfbfbfeb5fd53e0c, 0x4805dc3283a7215dd045a387e6f52dc6c19215ef9bd4a50a8a02460157fb555, 0xdb9ed8d9bc514584bedaef5cc225a987c060d355f70c2026538b842854a64b, 0x155b86d7b37d1cfc0e0f52f775a0b4a2f5f3028a61b9407a00664a2070560d3]
  constraint_oods_values := [0xa85fba9eb04dccbc00c5aff518e58a9a8dfb00ab02b8ddd7bc1822f33caf05, 0x12d55186a03348fe86c3022303cafce9714772cce70060f1a49132d400f6b8d]
  pow_nonce := 8463
  trace_decommitment := [bytes32 0x6eaa7f5ff3562c25fb60cc06415d7fb643c4f2e0000000000000000000000000, bytes32 0x755f7ca17b3a65f0b32de3a56e57309b93236828000000000000000000000000, bytes32 0xd5dc128546fa5248c401d5c8e13c24a7854112f6000000000000000000000000, bytes32 0x0f3ded0e94c0c181db0942726fc76e9ac4d37c02000000000000000000000000, bytes32 0xbf70fab9621bbc8488389e87606ff2d35459563b000000000000000000000000, bytes32 0xd75348658f5fcc33a7213910175cb2d7c48fee8a000000000000000000000000, bytes32 0x8d2b0a643c26de54dbd350c0e4dd4990ea7b2e45000000000000000000000000, bytes32 0xf71a2c94d98462582486709b79d40e997cd54e05000000000000000000000000, bytes32 0x31d86c399c9ce140dcde06a205aa587b701618d8000000000000000000000000, bytes32 0x643bbab534c47a3c762c5a5d8427e2685107dc94000000000000000000000000, bytes32 0xd116266521b6e66c0b06672f565e4416756cd4a5000000000000000000000000, bytes32 0xf6565cef359ad0add37c1000a56f2d0762077f82000000000000000000000000, bytes32 0x35f57409069bd3330675304ca2c383247c378954000000000000000000000000, bytes32 0x43702f529301d00f8596533393c21e41af2f35a1000000000000000000000000, bytes32 0x8c96a02d86a46af84bca1ef531692f5da885cd2c000000000000000000000000, bytes32 0x56c3bff0980c1398ac49392e0bc4b7b5fe907976000000000000000000000000, bytes32 0x121ab717d885802a289ca328abcb51cd9f9f29a2000000000000000000000000, bytes32 0xd1fc2dd1798274ac13e20cdf709667dee9abc3b6000000000000000000000000, bytes32 0xcd7d82dd9eccc562b8c038f252495d7922890915000000000000000000000000, bytes32 0x1578b799181b02b0011a8fd3c4942b4750d3bfdb000000000000000000000000, bytes32 0x544905570bdc795d9c709b08bcfa307cf714a0a9000000000000000000000000, bytes32 0xcee0410228a6203a2c1c0893c29ce8734d612115000000000000000000000000]
  constraint_decommitment := [bytes32 0x5bdc333e9ec34014679a5fbed290ab589c832ed1000000000000000000000000, bytes32 0xc0758e0fec7206816fd67124f570e2036ef755c8000000000000000000000000, bytes32 0x858ec2492c0abeead4cb00cdc08a0a601e8e4c7e000000000000000000000000, bytes32 0xd26bc2de4b749cf4f11fd763c12ec2d8caf05c38000000000000000000000000, bytes32 0x6546aeb2879af1afb06985f00cdf3e052a6a5e48000000000000000000000000, bytes32 0x882e637828f72d96a7be4b17246e611d356d34e2000000000000000000000000, bytes32 0x41f46008c7ab3a8f5e8f91451f19b7e6924792fc000000000000000000000000, bytes32 0x7d69557e5c04101659762a5809440edaa797f75c000000000000000000000000, bytes32 0x27ec8dd44e1a544226cbe079159f3dae724c0e3e000000000000000000000000, bytes32 0xc29bbfe93f71ff791f656c548e06abc939d376b2000000000000000000000000, bytes32 0xc73004273890be6f2451c6b046c714d3c0d366a1000000000000000000000000, bytes32 0xbc70d8c9444274ed4c5f3b0affe45580ce7e9b25000000000000000000000000, bytes32 0xeff8a7dd1cfb83e0e56bed1632df5fb4ac888ca0000000000000000000000000, bytes32 0xb98389c9538e3762c59b068a0172062e22f56d20000000000000000000000000, bytes32 0xbc4c62f7b19af549e9c78fa20f1042b8e9b70c55000000000000000000000000, bytes32 0xdf68028412d6c2b7b4855bf955794168c373a139000000000000000000000000, bytes32 0xd39841beaf3395ddf55e0708794afac2bd97412a000000000000000000000000, bytes32 0xdf54278b818d1fd91afb4ee88f34bc59ee38604f000000000000000000000000, bytes32 0x4ff7794bcc99933bc799198e5f203703b2cfc2cf000000000000000000000000, bytes32 0x4026386f4ebf055edd410b74e942b046fd450c5c000000000000000000000000, bytes32 0x1a0c9a48ffa88ea2c1d0b0528b99790e85c9d619000000000000000000000000, bytes32 0xe886af720ff104b37021d0a6a2b3f3598b1b7943000000000000000000000000]
  fri_values := [[0x49f3e8b54d268fcd2084bd9d115026b1d51c262ca5ee0d5fb9f006dd121e2b3, 0x6c62ee28d6f58a8bf914a500d8e545743f9b55c6a2af90a48971e646623ba71, 0x7ea2802802b6e684f9a7f935301fd433d66fe8b729dc03ce2c9493cbaea9a25, 0x242baa03407bbfd7f6b9e0e3884d232733febd5f3c431550bf2dea84a7d8e30, 0xd0f8e82f24a42d952691389474e90b5b86b2b01551ae0c9255f51e190e1f7d, 0x75745e9838408133d4dcad1523a507cbb6f47ffcb61c2e15d853fd8a4c8f61c, 0x16400ff8b8ff4653a12ac85e304aa891c538af7aea62dcb3e697b06086bb5ab, 0xf747948d5b1e22618867396aac9d01a9be417d4d4f86ab3490ee33764d11f, 0x5bd392ab4c89096c74109d0d622955882ca2b2c4c9e17fa4189f1594045b923, 0x6debb43b1a2de844ff6a676106e74f50e7ddb3b6f2552d836e2a3c66493195a, 0x1f8ad348965b0097a411e23ba23f9a9989a3e17a98682364537839519ef74c3, 0x7a87fa77fd1b3c79a99ca68f4f17e0a18be82f75609718b781c90f0a354bd0c, 0x4908ffea5d35de407ee35f8a5a762320cba9e246b9b8cc3e8e2eb06448e8df2, 0x50a015b99335f72df76fc256aef3a220dfbd0887e39e2503d64797ba460dbb0, 0x7f7392eb9c435b4c6fe086ee846a86163896f40b42f51365420024cbb01425f, 0x731c702f95b1eb596831aaf527b981f24aeedf8e40651e4fa997634d56d1a9a, 0x46c03c44ef811160701606c7d64c888925f95dc753eb14669d0250e8e2380, 0x77a53a7ab04aadd2e94f71c03a0bab670478a0c903a249965050537d71a6ef0, 0x453dc80456ba54ef203f35b8bf0b40fe520c879157fb68fced3a213dec6c165, 0x40cc3dec0fa30c9d91bf3ea5ae39af65243e01cff43383f9dec07e05f27fea6, 0x7ab75300d0a9c357893a86509fcbb956bfbba62c0b3733082033c8dc767fe36, 0x4c54d4e76eb81ae1c320d39fb5964264aeda22c8dc59f4eeeb18980ffbc9120, 0x2ac8f316a4e538cf1431b3d199079e968e955fed6624f62e3821eec3f649fcb, 0x428da52464cc3f9232b3b8fa017e21cbdc74d29dba9a25c75da91377442d363]]
  fri_commitments := [bytes32 0x03b5e80971a1a24f01ebf8c297f51807f612959f000000000000000000000000]
  fri_decommitments := [[bytes32 0x150506fc5a6eddf09e9e48bcc8cc16579376774c000000000000000000000000, bytes32 0xa8ea964eb6e5afe38acbaf3fb9c199546be5521c000000000000000000000000, bytes32 0x6a9bc798459377dee83c5ea3244cd380d0f13f6e000000000000000000000000, bytes32 0x72fee713e468558bf438d5a023e4663e7668dcfb000000000000000000000000]]
  last_layer_coefficients := [0x3b61ac80cee0ff9191fd9f2efa204f90f3f69f385fbe2b3dba9655cd95534d]

/-- a proof of the false claim: all opened values are zero -/
def forged : StarkProof where
  public_inputs := []
  trace_values := [0x0, 0x0, 0x0, 0x0, 0x0, 0x0, 0x0, 0x0, 0x0, 0x0, 0x0, 0x0, 0x0, 0x0, 0x0, 0x0, 0x0, 0x0, 0x0, 0x0, 0x0, 0x0, 0x0, 0x0, 0x0, 0x0, 0x0, 0x0, 0x0, 0x0, 0x0, 0x0, 0x0, 0x0, 0x0, 0x0, 0x0, 0x0, 0x0, 0x0]
  trace_commitment := bytes32 0x49849f7b9cec9d59318863842dc6854f1090f323000000000000000000000000
  constraint_values := [0x0, 0x0, 0x0, 0x0, 0x0, 0x0, 0x0, 0x0, 0x0, 0x0, 0x0, 0x0, 0x0, 0x0, 0x0, 0x0, 0x0, 0x0, 0x0, 0x0, 0x0, 0x0, 0x0, 0x0, 0x0, 0x0, 0x0, 0x0, 0x0, 0x0, 0x0, 0x0, 0x0, 0x0, 0x0, 0x0, 0x0, 0x0, 0x0, 0x0]
  constraint_commitment := bytes32 0x49849f7b9cec9d59318863842dc6854f1090f323000000000000000000000000
  trace_oods_values := [0x0, 0x0, 0x0, 0x0]
  constraint_oods_values := [0x0, 0x0, 0x34bd55fdfc7db36785f5fe2e1088fdd35b4ee759f49b6393c37a176dba288fa]
  pow_nonce := 51553
  trace_decommitment := [bytes32 0x159a63309bfcbd535df7bc5da6a91f0f346f8880000000000000000000000000, bytes32 0x159a63309bfcbd535df7bc5da6a91f0f346f8880000000000000000000000000, bytes32 0x159a63309bfcbd535df7bc5da6a91f0f346f8880000000000000000000000000, bytes32 0x159a63309bfcbd535df7bc5da6a91f0f346f8880000000000000000000000000, bytes32 0x159a63309bfcbd535df7bc5da6a91f0f346f8880000000000000000000000000, bytes32 0x159a63309bfcbd535df7bc5da6a91f0f346f8880000000000000000000000000, bytes32 0x159a63309bfcbd535df7bc5da6a91f0f346f8880000000000000000000000000, bytes32 0x159a63309bfcbd535df7bc5da6a91f0f346f8880000000000000000000000000, bytes32 0x159a63309bfcbd535df7bc5da6a91f0f346f8880000000000000000000000000, bytes32 0x159a63309bfcbd535df7bc5da6a91f0f346f8880000000000000000000000000, bytes32 0x159a63309bfcbd535df7bc5da6a91f0f346f8880000000000000000000000000, bytes32 0x159a63309bfcbd535df7bc5da6a91f0f346f8880000000000000000000000000, bytes32 0x159a63309bfcbd535df7bc5da6a91f0f346f8880000000000000000000000000, bytes32 0x159a63309bfcbd535df7bc5da6a91f0f346f8880000000000000000000000000, bytes32 0x159a63309bfcbd535df7bc5da6a91f0f346f8880000000000000000000000000, bytes32 0x159a63309bfcbd535df7bc5da6a91f0f346f8880000000000000000000000000, bytes32 0x94edb4dbe1f872341364649945cae66740edf7ce000000000000000000000000, bytes32 0x94edb4dbe1f872341364649945cae66740edf7ce000000000000000000000000, bytes32 0x94edb4dbe1f872341364649945cae66740edf7ce000000000000000000000000, bytes32 0x94edb4dbe1f872341364649945cae66740edf7ce000000000000000000000000, bytes32 0x94edb4dbe1f872341364649945cae66740edf7ce000000000000000000000000, bytes32 0x94edb4dbe1f872341364649945cae66740edf7ce000000000000000000000000, bytes32 0x94edb4dbe1f872341364649945cae66740edf7ce000000000000000000000000, bytes32 0x94edb4dbe1f872341364649945cae66740edf7ce000000000000000000000000, bytes32 0x94edb4dbe1f872341364649945cae66740edf7ce000000000000000000000000, bytes32 0x94edb4dbe1f872341364649945cae66740edf7ce000000000000000000000000, bytes32 0xc09c5aa4f1bebd1a90b5d7e76f474aa1933aee34000000000000000000000000, bytes32 0xc09c5aa4f1bebd1a90b5d7e76f474aa1933aee34000000000000000000000000]
  constraint_decommitment := [bytes32 0x159a63309bfcbd535df7bc5da6a91f0f346f8880000000000000000000000000, bytes32 0x159a63309bfcbd535df7bc5da6a91f0f346f8880000000000000000000000000, bytes32 0x159a63309bfcbd535df7bc5da6a91f0f346f8880000000000000000000000000, bytes32 0x159a63309bfcbd535df7bc5da6a91f0f346f8880000000000000000000000000, bytes32 0x159a63309bfcbd535df7bc5da6a91f0f346f8880000000000000000000000000, bytes32 0x159a63309bfcbd535df7bc5da6a91f0f346f8880000000000000000000000000, bytes32 0x159a63309bfcbd535df7bc5da6a91f0f346f8880000000000000000000000000, bytes32 0x159a63309bfcbd535df7bc5da6a91f0f346f8880000000000000000000000000, bytes32 0x159a63309bfcbd535df7bc5da6a91f0f346f8880000000000000000000000000, bytes32 0x159a63309bfcbd535df7bc5da6a91f0f346f8880000000000000000000000000, bytes32 0x159a63309bfcbd535df7bc5da6a91f0f346f8880000000000000000000000000, bytes32 0x159a63309bfcbd535df7bc5da6a91f0f346f8880000000000000000000000000, bytes32 0x159a63309bfcbd535df7bc5da6a91f0f346f8880000000000000000000000000, bytes32 0x159a63309bfcbd535df7bc5da6a91f0f346f8880000000000000000000000000, bytes32 0x159a63309bfcbd535df7bc5da6a91f0f346f8880000000000000000000000000, bytes32 0x159a63309bfcbd535df7bc5da6a91f0f346f8880000000000000000000000000, bytes32 0x94edb4dbe1f872341364649945cae66740edf7ce000000000000000000000000, bytes32 0x94edb4dbe1f872341364649945cae66740edf7ce000000000000000000000000, bytes32 0x94edb4dbe1f872341364649945cae66740edf7ce000000000000000000000000, bytes32 0x94edb4dbe1f872341364649945cae66740edf7ce000000000000000000000000, bytes32 0x94edb4dbe1f872341364649945cae66740edf7ce000000000000000000000000, bytes32 0x94edb4dbe1f872341364649945cae66740edf7ce000000000000000000000000, bytes32 0x94edb4dbe1f872341364649945cae66740edf7ce000000000000000000000000, bytes32 0x94edb4dbe1f872341364649945cae66740edf7ce000000000000000000000000, bytes32 0x94edb4dbe1f872341364649945cae66740edf7ce000000000000000000000000, bytes32 0x94edb4dbe1f872341364649945cae66740edf7ce000000000000000000000000, bytes32 0xc09c5aa4f1bebd1a90b5d7e76f474aa1933aee34000000000000000000000000, bytes32 0xc09c5aa4f1bebd1a90b5d7e76f474aa1933aee34000000000000000000000000]
  fri_values := [[0x0, 0x0, 0x0, 0x0, 0x0, 0x0, 0x0, 0x0, 0x0, 0x0, 0x0, 0x0, 0x0, 0x0, 0x0, 0x0, 0x0, 0x0, 0x0, 0x0, 0x0, 0x0, 0x0, 0x0, 0x0, 0x0, 0x0, 0x0, 0x0, 0x0, 0x0, 0x0, 0x0, 0x0, 0x0, 0x0]]
  fri_commitments := [bytes32 0x6fe43b9e31671370dd7e44450f83c789afe45e48000000000000000000000000]
  fri_decommitments := [[bytes32 0xfff5a7e3afe5d5c4a8858da2df28b029458e5fda000000000000000000000000, bytes32 0xfff5a7e3afe5d5c4a8858da2df28b029458e5fda000000000000000000000000]]
  last_layer_coefficients := [0x0]

end Example
end EvmVerifier
end Props
end OpenZKP
