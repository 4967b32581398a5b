import Verif.Tests.Sha256
import Verif.Tests.ApiKeys
import Verif.Model.Prost
import Verif.Model.Logging
import Verif.Spec.GalmonSpec

/-! # The unit tests of the repository, replayed through the model

Every unit test of `/repo` with its data (most of it received from Galileo satellites), run by the kernel on the model with a real SHA-256 and
HMAC-SHA-256 (`Tests/Sha256.lean`).  These are tests of the fidelity of the model, not proofs; no property depends on them. -/

namespace Verif.UnitTests
open Verif Sha2

/-- Bytes of a given length. -/
def fix (n : Nat) (l : List Byte) : Bytes n := Sim.fix n l

/-- Satellite and time. -/
def sv (n : Nat) : Svn := Sim.sv n
def gst (wn tow : Nat) : Gst := if h : wn < 65536 ∧ tow < 604800 then ⟨wn, tow, h.1, h.2⟩ else default

/-! ## `tesla.rs`, lines 1049–1239 -/

/-- `test_chain`, lines 1054–1065. -/
def testChain : Chain := ⟨1, .Sha256, .HmacSha256, 16, 40, 0x21, 0x25d3964da3a2, by decide, by decide, by decide, by decide, by decide⟩

/-- `test_chain_2023`, lines 1067–1078. -/
def testChain2023 : Chain := ⟨0, .Sha256, .HmacSha256, 16, 40, 34, 0xe409305bb856, by decide, by decide, by decide, by decide, by decide⟩

/-- `Key::from_slice` of 16 bytes. -/
def keyOf (v wn tow : Nat) (c : Chain) : Res Key := Key.fromSlice (hex 16 v) (gst wn tow) c

/-- `one_way_function`, lines 1081–1096. -/
example : (do let k1 ← keyOf 0x9542aad47abf39bafe566861afe880b2 1176 120960 testChain; k1.oneWayFunction demoCrypto) =
    keyOf 0x42b419da6ada1c0a3d6f56a5e5dc59a7 1176 120930 testChain := by decide +kernel

/-- `validation_kroot`, lines 1098–1115: 72 steps of the chain. -/
example : Sim.okVal (do
    let kroot ← keyOf 0x841e1de4d458c0e9842476e004666cf3 1176 (0x21 * 3600 - 30) testChain
    let key ← keyOf 0x42b419da6ada1c0a3d6f56a5e5dc59a7 1176 120930 testChain
    kroot.validateKey demoCrypto key) = some ⟨fix 32 (hex 16 0x42b419da6ada1c0a3d6f56a5e5dc59a7 ++ List.replicate 16 0#8), testChain, gst 1176 120930⟩ := by
  decide +kernel

/-- `tag0`, lines 1117–1140. -/
example : (do
    let key ← keyOf 0x1958e7766fb408cbd6a8defce4c7d566 1176 121080 testChain
    key.validateTag0 demoCrypto (bitsOf (hex 5 0x8f54588871)) (gst 1176 121050) (sv 21) .Test
      ((bitsOf (hex 69 0x1207d0ec19902e001fe106aa04ed971211f0561f49eace67884d1857819f123ff037489342c3c296c765c3831ac48540017ffd87d0fe85ee31fff6200c680bfe4800501400)).take 549)) = .ok true := by
  decide +kernel

/-- Not in the repository: the same tag for other data. -/
example : (do
    let key ← keyOf 0x1958e7766fb408cbd6a8defce4c7d566 1176 121080 testChain
    key.validateTag0 demoCrypto (bitsOf (hex 5 0x8f54588871)) (gst 1176 121050) (sv 21) .Test
      ((bitsOf (hex 69 0x1207d0ec19902e001fe106aa04ed971211f0561f49eace67884d1857819f123ff037489342c3c296c765c3831ac48540017ffd87d0fe85ee31fff6200c680bfe4800501500)).take 549)) = .ok false := by
  decide +kernel

/-- `test_mack` and `test_mack_2023`, lines 1142–1174. -/
def testMack : Mack := Mack.new (fix 60 (hex 60
  0x7eff9e16a5ddf004f03c9b6b1b074d492edd670b0260ef9b833613c094a872a7f612058f2ef763240ec5ca400fadf112479f05449a25d82e80c80000)) 128 40
def testMack2023 : Mack := Mack.new (fix 60 (hex 60
  0x8836afa35bebb132bf2f08e9240f0ad4c04fa2080f1d02fb7f5303c1d4a6c53b4a050f82b1534cfe08cfb32cdf025f50cf3904d27826303910bf0000)) 128 40

/-- `adkd`, lines 1190–1202. -/
example : testMack.numTags = .ok 6 ∧ ∀ j ∈ [1, 2, 3, 4, 5],
    Sim.okVal (do testChain.validateAdkd j (← testMack.tagAndInfo j) (sv 19) (gst 1176 121050)) = some () := by decide +kernel

/-- `adkd_2023`, lines 1204–1216. -/
example : testMack2023.numTags = .ok 6 ∧ ∀ j ∈ [1, 2, 3, 4, 5],
    Sim.okVal (do testChain.validateAdkd j (← testMack2023.tagAndInfo j) (sv 3) (gst 1268 208890)) = some () := by decide +kernel

/-- `macseq`, lines 1218–1228. -/
example : Sim.okVal (do
    let key ← keyOf 0x1958e7766fb408cbd6a8defce4c7d566 1176 121080 testChain
    key.validateMacseq demoCrypto testMack (sv 19) (gst 1176 121050)) = some () := by decide +kernel

/-- `macseq_2023`, lines 1230–1240. -/
example : Sim.okVal (do
    let key ← keyOf 0x334fd3e568c04e2a44dba78a0301c34a 1268 208920 testChain2023
    key.validateMacseq demoCrypto testMack2023 (sv 3) (gst 1268 208890)) = some () := by decide +kernel

/-- The MACSEQ and the ADKDs together: the MACK is accepted. -/
example : Sim.okVal (do
    let key ← keyOf 0x334fd3e568c04e2a44dba78a0301c34a 1268 208920 testChain2023
    testMack2023.validate demoCrypto key (sv 3) (gst 1268 208890)) = some testMack2023 := by decide +kernel

/-! ## `bitfields.rs`, lines 1021–1250 -/

/-- `nma_header`, lines 1026–1036. -/
example : (NmaHeader.mk 0x52#8).nmaStatus = .Test ∧ (NmaHeader.mk 0x52#8).chainId = 1 ∧ (NmaHeader.mk 0x52#8).cpks = .Nominal := by decide

/-- `dsm_header`, lines 1038–1045. -/
example : (DsmHeader.mk 0x17#8).dsmId = 1 ∧ (DsmHeader.mk 0x17#8).dsmBlockId = 7 ∧ (DsmHeader.mk 0x17#8).dsmType = .Kroot := by decide

/-- The DSM-PKRs of `dsm_pkr`, `message_0` and `message_1`, and the root of the Merkle tree. -/
def pkr0 : DsmPkr := ⟨hex 169
  0x7001631bdced79d4317bc2870ee3895bd59cf2b6ea516fabbfdf1d739626146ffe316fa9285f5a1e44042413bdaf18aa3cf684723397d7b8325aeca1ebca9f0f649905424cbe482a1a32b01064f85d0c36df038e52ce128e7ec5f323e165b182a71537bdb010972eb4a3b90baacd14941ef40da2cb2b82d378b315c008decefd8e110374a925cfa0ff1805e5c5a58fdba31bf0145d5b5be2f062d3f8bb2ee98f0f6db0e823c5e75e78⟩
def pkr1 : DsmPkr := ⟨hex 169
  0x71e5530a33d5cb60c95016b8aec74593dbcdf2711d399ea24869173ca229379a15316fa9285f5a1e44042413bdaf18aa3cf684723397d7b8325aeca1ebca9f0f649905424cbe482a1a32b01064f85d0c36df038e52ce128e7ec5f323e165b182a71537bdb010972eb4a3b90baacd14941ef40da2cb2b82d378b315c008decefd8e12033578e5c711a9c3bddd1ca4ee85f7c51b367897cb40b88568a0c897da30efb7c324e0222c9080⟩
def root : MerkleTreeNode := fix 32 (hex 32 0x0e63f552c8021709043c239032effe941bf22c8389032f5f2701e0fbc80148b8)
def itn1 : List Byte := hex 32 0x316fa9285f5a1e44042413bdaf18aa3cf684723397d7b8325aeca1ebca9f0f64
def itn2 : List Byte := hex 32 0x9905424cbe482a1a32b01064f85d0c36df038e52ce128e7ec5f323e165b182a7
def itn3 : List Byte := hex 32 0x1537bdb010972eb4a3b90baacd14941ef40da2cb2b82d378b315c008decefd8e

/-- `dsm_pkr`, lines 1047–1153. -/
example : pkr0.numberOfBlocks = .ok (some 13) ∧ pkr0.messageId = .ok 0 ∧
    pkr0.intermediateTreeNode 0 = .ok (hex 32 0x01631bdced79d4317bc2870ee3895bd59cf2b6ea516fabbfdf1d739626146ffe) ∧
    pkr0.intermediateTreeNode 1 = .ok itn1 ∧ pkr0.intermediateTreeNode 2 = .ok itn2 ∧ pkr0.intermediateTreeNode 3 = .ok itn3 ∧
    pkr0.newPublicKeyType = .ok (.EcdsaKey .P256Sha256) ∧ pkr0.newPublicKeyId = .ok 1 ∧
    pkr0.newPublicKey = .ok (some (hex 33 0x0374a925cfa0ff1805e5c5a58fdba31bf0145d5b5be2f062d3f8bb2ee98f0f6db0)) ∧
    pkr0.padding = .ok (some (hex 6 0xe823c5e75e78)) ∧ pkr0.checkPadding demoCrypto root = .ok true := by decide +kernel

example : pkr1.numberOfBlocks = .ok (some 13) ∧ pkr1.messageId = .ok 1 ∧
    pkr1.intermediateTreeNode 0 = .ok (hex 32 0xe5530a33d5cb60c95016b8aec74593dbcdf2711d399ea24869173ca229379a15) ∧
    pkr1.intermediateTreeNode 1 = .ok itn1 ∧ pkr1.intermediateTreeNode 2 = .ok itn2 ∧ pkr1.intermediateTreeNode 3 = .ok itn3 ∧
    pkr1.newPublicKeyType = .ok (.EcdsaKey .P256Sha256) ∧ pkr1.newPublicKeyId = .ok 2 ∧
    pkr1.newPublicKey = .ok (some (hex 33 0x033578e5c711a9c3bddd1ca4ee85f7c51b367897cb40b88568a0c897da30efb7c3)) ∧
    pkr1.padding = .ok (some (hex 6 0x24e0222c9080)) ∧ pkr1.checkPadding demoCrypto root = .ok true := by decide +kernel

/-- The DSM-KROOT of `dsm_kroot` and `collect_dsm`. -/
def kroot : DsmKroot := ⟨hex 104
  0x2250492104982125d3964da3a2841e1de4d458c0e9842476e004666cf37958de285197a26353f1a4c66d7e3d291853ba5a13c9c3484a267770112a13383ea52d3a019d5b6e1dd187b9453cdf06ca7f34ea1497525aaf18f1f9f1fccb1229897735c021b0417393b5⟩

/-- `dsm_kroot`, lines 1155–1197. -/
example : kroot.numberOfBlocks = .ok (some 8) ∧ kroot.publicKeyId = .ok 2 ∧ kroot.krootChainId = .ok 1 ∧ kroot.hashFunction = .ok .Sha256 ∧
    kroot.macFunction = .ok .HmacSha256 ∧ kroot.keySize = .ok (some 128) ∧ kroot.tagSize = .ok (some 40) ∧ kroot.macLookupTable = .ok 0x21 ∧
    kroot.krootWn = .ok 0x498 ∧ kroot.krootTowh = .ok 0x21 ∧ kroot.alpha = .ok 0x25d3964da3a2 ∧
    kroot.kroot = .ok (hex 16 0x841e1de4d458c0e9842476e004666cf3) ∧ kroot.ecdsaFunction = .ok .P256Sha256 ∧
    kroot.digitalSignature = .ok (hex 64
      0x7958de285197a26353f1a4c66d7e3d291853ba5a13c9c3484a267770112a13383ea52d3a019d5b6e1dd187b9453cdf06ca7f34ea1497525aaf18f1f9f1fccb12) ∧
    kroot.padding = .ok (hex 11 0x29897735c021b0417393b5) ∧ kroot.checkPadding demoCrypto ⟨0x52#8⟩ = .ok true := by decide +kernel

/-- The MACK of `mack`. -/
def mack : Mack := Mack.new (fix 60 (hex 60
  0x1155d371f21f30a8e4ece0c01b076d177d64031205d4027e771315c04cca1c16991a05489107a7f70ec542b419da6ada1c0a3d6f56a5e5dc59a70000)) 128 40

/-- `mack`, lines 1199–1250. -/
example : mack.keySize = 128 ∧ mack.tagSize = 40 ∧ mack.tag0 = .ok (bitsOf (hex 5 0x1155d371f2)) ∧ mack.macseq = .ok 0x1f3 ∧ mack.numTags = .ok 6 ∧
    mack.key = .ok (bitsOf (hex 16 0x42b419da6ada1c0a3d6f56a5e5dc59a7)) := by decide +kernel

example : (do let t ← mack.tagAndInfo 1; pure (t.tag, t.prnd, t.adkd) : Res _) = .ok (bitsOf (hex 5 0xa8e4ece0c0), .GalileoSvid 0x1b, .InavCed) := by
  decide +kernel

example : (do let t ← mack.tagAndInfo 2; pure (t.tag, t.prnd, t.adkd) : Res _) = .ok (bitsOf (hex 5 0x6d177d6403), .GalileoSvid 0x12, .InavCed) := by
  decide +kernel

example : (do let t ← mack.tagAndInfo 3; pure (t.tag, t.prnd, t.adkd) : Res _) = .ok (bitsOf (hex 5 0xd4027e7713), .GalileoSvid 0x15, .SlowMac) := by
  decide +kernel

example : (do let t ← mack.tagAndInfo 4; pure (t.tag, t.prnd, t.adkd) : Res _) = .ok (bitsOf (hex 5 0x4cca1c1699), .GalileoSvid 0x1a, .InavCed) := by
  decide +kernel

example : (do let t ← mack.tagAndInfo 5; pure (t.tag, t.prnd, t.adkd) : Res _) = .ok (bitsOf (hex 5 0x489107a7f7), .GalileoSvid 0x0e, .SlowMac) := by
  decide +kernel

/-! ## `merkle_tree.rs`, lines 249–319 -/

/-- The identifier of the public key of a DSM-PKR, or the error. -/
def pkrResult (d : DsmPkr) : Option (Nat ⊕ PkrError) :=
  match Merkle.validatePkr demoCrypto root d with
  | .ok (.ok pk) => some (.inl pk.pkid)
  | .ok (.error e) => some (.inr e)
  | .panic _ => none

/-- `message_0`, lines 260–285. -/
example : pkrResult pkr0 = some (.inl 1) ∧ pkrResult ⟨pkr0.data.modify 40 (· ^^^ 1#8)⟩ = some (.inr .Invalid) := by decide +kernel

/-- `message_1`, lines 287–312. -/
example : pkrResult pkr1 = some (.inl 2) ∧ pkrResult ⟨pkr1.data.modify 123 (· ^^^ 1#8)⟩ = some (.inr .Invalid) := by decide +kernel

/-! ## `dsm.rs`, lines 204–262 -/

/-- The HKROOT messages of `collect_dsm`. -/
def hkroots : List (List Byte) := [
  hex 15 0x5225019d5b6e1dd187b9453cdf06ca,
  hex 15 0x5223a4c66d7e3d291853ba5a13c9c3,
  hex 15 0x5227cb1229897735c021b0417393b5,
  hex 15 0x52267f34ea1497525aaf18f1f9f1fc,
  hex 15 0x5224484a267770112a13383ea52d3a,
  hex 15 0x52202250492104982125d3964da3a2,
  hex 15 0x5227cb1229897735c021b0417393b5,
  hex 15 0x5225019d5b6e1dd187b9453cdf06ca,
  hex 15 0x52202250492104982125d3964da3a2,
  hex 15 0x52202250492104982125d3964da3a2,
  hex 15 0x52267f34ea1497525aaf18f1f9f1fc,
  hex 15 0x5221841e1de4d458c0e9842476e004,
  hex 15 0x5227cb1229897735c021b0417393b5,
  hex 15 0x5222666cf37958de285197a26353f1]

/-- Feeds HKROOT messages; the results and the `done` flags. -/
def feedHkroots : CollectDsm → List (List Byte) → Res (List (Option Dsm × Bool))
  | _, [] => .ok []
  | c, h :: hs => do
    let (c', r) ← c.feed ⟨h.getD 1 0#8⟩ (fix 13 (h.drop 2))
    let rs ← feedHkroots c' hs
    pure ((r, c'.done) :: rs)

/-- `collect_dsm`, lines 209–262. -/
example : feedHkroots .new hkroots = .ok (List.replicate 13 (none, false) ++ [(some ⟨2, .Kroot, kroot.data⟩, true)]) := by decide +kernel

/-! ## `subframe.rs`, lines 126–189 -/

/-- Feeds data at times, as in `collect`; the results. -/
def feedTimes : CollectSubframe → List (Nat × Nat) → Res (List (Option (List Byte × List Byte × Gst)))
  | _, [] => .ok []
  | c, (tow, n) :: ts => do
    let x := BitVec.ofNat 8 n
    let (c', r) ← c.feed (fix 5 ((x ^^^ 0xff#8) :: List.replicate 4 x)) (sv 1) (gst 1234 tow)
    let rs ← feedTimes c' ts
    pure (r.map (fun x => (x.1.val, x.2.1.val, x.2.2)) :: rs)

/-- `collect`, lines 130–187: 13 pages from 5 s into a subframe, and then a whole subframe. -/
example : feedTimes .new ((List.range 13).map (fun i => (3695 + 2 * i, i)) ++ (List.range 15).map (fun i => (3720 + 2 * i, 13 + i))) =
    .ok (List.replicate 27 none ++ [some ((List.range 15).map (fun j => BitVec.ofNat 8 (13 + j) ^^^ 0xff#8),
      ((List.range 15).flatMap fun j => List.replicate 4 (BitVec.ofNat 8 (13 + j))), gst 1234 3720)]) := by decide +kernel

/-! ## `maclt.rs`, lines 269–325 -/

/-- `lookups`, lines 273–280. -/
example : Maclt.getEntry 34 0 1 = .ok (.ok .Flex) ∧ Maclt.getEntry 34 0 2 = .ok (.ok Maclt.F04S) ∧ Maclt.getEntry 34 1 5 = .ok (.ok Maclt.F12E) ∧
    Maclt.getEntry 26 0 1 = .ok (.error .InvalidMaclt) ∧ Maclt.getEntry 34 0 6 = .ok (.error .InvalidTagNumber) := ⟨rfl, rfl, rfl, rfl, rfl⟩

/-- `lookup_wrong_msg` and `lookup_wrong_tag_number`, lines 282–292. -/
example : (Maclt.getEntry 34 2 1).Panics ∧ (Maclt.getEntry 34 0 0).Panics := ⟨⟨_, rfl⟩, ⟨_, rfl⟩⟩

/-- `flx_indices`, lines 317–323. -/
example : Maclt.getFlxIndices 34 0 = .ok (.ok [1, 3]) ∧ Maclt.getFlxIndices 34 1 = .ok (.ok [1]) := ⟨rfl, rfl⟩

/-- `max_flx_entries`, lines 294–315 (`MAX_FLX_ENTRIES = 4`, line 21): the longest list of indices. -/
example : (List.range 256).all (fun id => [0, 1].all fun half =>
      match Maclt.getFlxIndices id half with | .ok (.ok l) => decide (l.length ≤ 4) | .ok (.error _) => true | .panic _ => false) = true ∧
    Maclt.getFlxIndices 35 1 = .ok (.ok [1, 2, 4, 5]) := ⟨by decide +kernel, rfl⟩

/-! ## `svn.rs`, lines 104–136 -/

/-- `from_int`, `format`, `iterator`. -/
example : ((List.range' 1 36).all fun j => (Svn.tryFrom j).isSome) = true ∧ Svn.tryFrom 0 = none ∧ Svn.tryFrom 37 = none ∧
    (sv 3).display = "E03".toList ∧ (sv 24).display = "E24".toList ∧ Svn.iter.map Svn.val = List.range' 1 36 := by decide +kernel

/-! ## `galmon/mod.rs`, lines 143–192 -/

/-- `GALMON_PACKETS`, `galmon/transport/test/data.rs`: 832 bytes received from the Galmon network. -/
def galmonPackets : List Byte := [
  0x62#8, 0x65#8, 0x72#8, 0x74#8, 0x00#8, 0x2a#8, 0x08#8, 0x01#8, 0x10#8, 0x01#8, 0x18#8, 0xcb#8, 0xa3#8, 0x97#8, 0x91#8, 0x06#8,
  0x20#8, 0xaf#8, 0xca#8, 0x8d#8, 0xbb#8, 0x02#8, 0x32#8, 0x18#8, 0x08#8, 0x00#8, 0x10#8, 0x0a#8, 0x18#8, 0x00#8, 0x20#8, 0x19#8,
  0x28#8, 0xaa#8, 0x02#8, 0x31#8, 0x00#8, 0x00#8, 0x00#8, 0x00#8, 0x00#8, 0x00#8, 0x00#8, 0x00#8, 0x40#8, 0x00#8, 0x48#8, 0x00#8,
  0x62#8, 0x65#8, 0x72#8, 0x74#8, 0x00#8, 0x2a#8, 0x08#8, 0x01#8, 0x10#8, 0x01#8, 0x18#8, 0xcb#8, 0xa3#8, 0x97#8, 0x91#8, 0x06#8,
  0x20#8, 0xaf#8, 0xca#8, 0x8d#8, 0xbb#8, 0x02#8, 0x32#8, 0x18#8, 0x08#8, 0x00#8, 0x10#8, 0x0c#8, 0x18#8, 0x00#8, 0x20#8, 0x37#8,
  0x28#8, 0xd9#8, 0x01#8, 0x31#8, 0x00#8, 0x00#8, 0x00#8, 0x00#8, 0x00#8, 0x00#8, 0x00#8, 0x00#8, 0x40#8, 0x00#8, 0x48#8, 0x00#8,
  0x62#8, 0x65#8, 0x72#8, 0x74#8, 0x00#8, 0x2a#8, 0x08#8, 0x01#8, 0x10#8, 0x01#8, 0x18#8, 0xcb#8, 0xa3#8, 0x97#8, 0x91#8, 0x06#8,
  0x20#8, 0xaf#8, 0xca#8, 0x8d#8, 0xbb#8, 0x02#8, 0x32#8, 0x18#8, 0x08#8, 0x00#8, 0x10#8, 0x0d#8, 0x18#8, 0x00#8, 0x20#8, 0x1c#8,
  0x28#8, 0x85#8, 0x01#8, 0x31#8, 0x00#8, 0x00#8, 0x00#8, 0x00#8, 0x00#8, 0x00#8, 0x00#8, 0x00#8, 0x40#8, 0x00#8, 0x48#8, 0x00#8,
  0x62#8, 0x65#8, 0x72#8, 0x74#8, 0x00#8, 0x2a#8, 0x08#8, 0x01#8, 0x10#8, 0x01#8, 0x18#8, 0xcb#8, 0xa3#8, 0x97#8, 0x91#8, 0x06#8,
  0x20#8, 0xaf#8, 0xca#8, 0x8d#8, 0xbb#8, 0x02#8, 0x32#8, 0x18#8, 0x08#8, 0x00#8, 0x10#8, 0x0f#8, 0x18#8, 0x00#8, 0x20#8, 0x37#8,
  0x28#8, 0xa2#8, 0x01#8, 0x31#8, 0x00#8, 0x00#8, 0x00#8, 0x00#8, 0x00#8, 0x00#8, 0x00#8, 0x00#8, 0x40#8, 0x00#8, 0x48#8, 0x00#8,
  0x62#8, 0x65#8, 0x72#8, 0x74#8, 0x00#8, 0x29#8, 0x08#8, 0x01#8, 0x10#8, 0x01#8, 0x18#8, 0xcb#8, 0xa3#8, 0x97#8, 0x91#8, 0x06#8,
  0x20#8, 0xaf#8, 0xca#8, 0x8d#8, 0xbb#8, 0x02#8, 0x32#8, 0x17#8, 0x08#8, 0x00#8, 0x10#8, 0x11#8, 0x18#8, 0x00#8, 0x20#8, 0x16#8,
  0x28#8, 0x35#8, 0x31#8, 0x00#8, 0x00#8, 0x00#8, 0x00#8, 0x00#8, 0x00#8, 0x00#8, 0x00#8, 0x40#8, 0x00#8, 0x48#8, 0x00#8, 0x62#8,
  0x65#8, 0x72#8, 0x74#8, 0x00#8, 0x29#8, 0x08#8, 0x01#8, 0x10#8, 0x01#8, 0x18#8, 0xcb#8, 0xa3#8, 0x97#8, 0x91#8, 0x06#8, 0x20#8,
  0xaf#8, 0xca#8, 0x8d#8, 0xbb#8, 0x02#8, 0x32#8, 0x17#8, 0x08#8, 0x00#8, 0x10#8, 0x13#8, 0x18#8, 0x00#8, 0x20#8, 0x1f#8, 0x28#8,
  0x4d#8, 0x31#8, 0x00#8, 0x00#8, 0x00#8, 0x00#8, 0x00#8, 0x00#8, 0x00#8, 0x00#8, 0x40#8, 0x00#8, 0x48#8, 0x00#8, 0x62#8, 0x65#8,
  0x72#8, 0x74#8, 0x00#8, 0x2a#8, 0x08#8, 0x01#8, 0x10#8, 0x01#8, 0x18#8, 0xcb#8, 0xa3#8, 0x97#8, 0x91#8, 0x06#8, 0x20#8, 0xaf#8,
  0xca#8, 0x8d#8, 0xbb#8, 0x02#8, 0x32#8, 0x18#8, 0x08#8, 0x00#8, 0x10#8, 0x17#8, 0x18#8, 0x00#8, 0x20#8, 0x20#8, 0x28#8, 0x84#8,
  0x02#8, 0x31#8, 0x00#8, 0x00#8, 0x00#8, 0x00#8, 0x00#8, 0x00#8, 0x00#8, 0x00#8, 0x40#8, 0x00#8, 0x48#8, 0x00#8, 0x62#8, 0x65#8,
  0x72#8, 0x74#8, 0x00#8, 0x2a#8, 0x08#8, 0x01#8, 0x10#8, 0x01#8, 0x18#8, 0xcb#8, 0xa3#8, 0x97#8, 0x91#8, 0x06#8, 0x20#8, 0xaf#8,
  0xca#8, 0x8d#8, 0xbb#8, 0x02#8, 0x32#8, 0x18#8, 0x08#8, 0x00#8, 0x10#8, 0x18#8, 0x18#8, 0x00#8, 0x20#8, 0x48#8, 0x28#8, 0xd6#8,
  0x02#8, 0x31#8, 0x00#8, 0x00#8, 0x00#8, 0x00#8, 0x00#8, 0x00#8, 0x00#8, 0x00#8, 0x40#8, 0x00#8, 0x48#8, 0x00#8, 0x62#8, 0x65#8,
  0x72#8, 0x74#8, 0x00#8, 0x2a#8, 0x08#8, 0x01#8, 0x10#8, 0x01#8, 0x18#8, 0xcb#8, 0xa3#8, 0x97#8, 0x91#8, 0x06#8, 0x20#8, 0xaf#8,
  0xca#8, 0x8d#8, 0xbb#8, 0x02#8, 0x32#8, 0x18#8, 0x08#8, 0x00#8, 0x10#8, 0x19#8, 0x18#8, 0x00#8, 0x20#8, 0x11#8, 0x28#8, 0xe2#8,
  0x01#8, 0x31#8, 0x00#8, 0x00#8, 0x00#8, 0x00#8, 0x00#8, 0x00#8, 0x00#8, 0x00#8, 0x40#8, 0x00#8, 0x48#8, 0x00#8, 0x62#8, 0x65#8,
  0x72#8, 0x74#8, 0x00#8, 0x2a#8, 0x08#8, 0x01#8, 0x10#8, 0x01#8, 0x18#8, 0xcb#8, 0xa3#8, 0x97#8, 0x91#8, 0x06#8, 0x20#8, 0xaf#8,
  0xca#8, 0x8d#8, 0xbb#8, 0x02#8, 0x32#8, 0x18#8, 0x08#8, 0x02#8, 0x10#8, 0x01#8, 0x18#8, 0x00#8, 0x20#8, 0x06#8, 0x28#8, 0xe8#8,
  0x01#8, 0x31#8, 0x00#8, 0x00#8, 0x00#8, 0x00#8, 0x00#8, 0x00#8, 0x00#8, 0x00#8, 0x40#8, 0x00#8, 0x48#8, 0x00#8, 0x62#8, 0x65#8,
  0x72#8, 0x74#8, 0x00#8, 0x2a#8, 0x08#8, 0x01#8, 0x10#8, 0x01#8, 0x18#8, 0xcb#8, 0xa3#8, 0x97#8, 0x91#8, 0x06#8, 0x20#8, 0xaf#8,
  0xca#8, 0x8d#8, 0xbb#8, 0x02#8, 0x32#8, 0x18#8, 0x08#8, 0x02#8, 0x10#8, 0x07#8, 0x18#8, 0x00#8, 0x20#8, 0x18#8, 0x28#8, 0x94#8,
  0x01#8, 0x31#8, 0x00#8, 0x00#8, 0x00#8, 0x00#8, 0x00#8, 0x00#8, 0x00#8, 0x00#8, 0x40#8, 0x00#8, 0x48#8, 0x00#8, 0x62#8, 0x65#8,
  0x72#8, 0x74#8, 0x00#8, 0x29#8, 0x08#8, 0x01#8, 0x10#8, 0x01#8, 0x18#8, 0xcb#8, 0xa3#8, 0x97#8, 0x91#8, 0x06#8, 0x20#8, 0xaf#8,
  0xca#8, 0x8d#8, 0xbb#8, 0x02#8, 0x32#8, 0x17#8, 0x08#8, 0x02#8, 0x10#8, 0x12#8, 0x18#8, 0x00#8, 0x20#8, 0x1d#8, 0x28#8, 0x53#8,
  0x31#8, 0x00#8, 0x00#8, 0x00#8, 0x00#8, 0x00#8, 0x00#8, 0x00#8, 0x00#8, 0x40#8, 0x00#8, 0x48#8, 0x00#8, 0x62#8, 0x65#8, 0x72#8,
  0x74#8, 0x00#8, 0x2a#8, 0x08#8, 0x01#8, 0x10#8, 0x01#8, 0x18#8, 0xcb#8, 0xa3#8, 0x97#8, 0x91#8, 0x06#8, 0x20#8, 0xaf#8, 0xca#8,
  0x8d#8, 0xbb#8, 0x02#8, 0x32#8, 0x18#8, 0x08#8, 0x02#8, 0x10#8, 0x13#8, 0x18#8, 0x00#8, 0x20#8, 0x33#8, 0x28#8, 0xb2#8, 0x02#8,
  0x31#8, 0x00#8, 0x00#8, 0x00#8, 0x00#8, 0x00#8, 0x00#8, 0x00#8, 0x00#8, 0x40#8, 0x00#8, 0x48#8, 0x00#8, 0x62#8, 0x65#8, 0x72#8,
  0x74#8, 0x00#8, 0x2a#8, 0x08#8, 0x01#8, 0x10#8, 0x01#8, 0x18#8, 0xcb#8, 0xa3#8, 0x97#8, 0x91#8, 0x06#8, 0x20#8, 0xaf#8, 0xca#8,
  0x8d#8, 0xbb#8, 0x02#8, 0x32#8, 0x18#8, 0x08#8, 0x02#8, 0x10#8, 0x15#8, 0x18#8, 0x00#8, 0x20#8, 0x35#8, 0x28#8, 0xeb#8, 0x01#8,
  0x31#8, 0x00#8, 0x00#8, 0x00#8, 0x00#8, 0x00#8, 0x00#8, 0x00#8, 0x00#8, 0x40#8, 0x00#8, 0x48#8, 0x00#8, 0x62#8, 0x65#8, 0x72#8,
  0x74#8, 0x00#8, 0x29#8, 0x08#8, 0x01#8, 0x10#8, 0x01#8, 0x18#8, 0xcb#8, 0xa3#8, 0x97#8, 0x91#8, 0x06#8, 0x20#8, 0xaf#8, 0xca#8,
  0x8d#8, 0xbb#8, 0x02#8, 0x32#8, 0x17#8, 0x08#8, 0x02#8, 0x10#8, 0x1b#8, 0x18#8, 0x00#8, 0x20#8, 0x45#8, 0x28#8, 0x2a#8, 0x31#8,
  0x00#8, 0x00#8, 0x00#8, 0x00#8, 0x00#8, 0x00#8, 0x00#8, 0x00#8, 0x40#8, 0x00#8, 0x48#8, 0x00#8, 0x62#8, 0x65#8, 0x72#8, 0x74#8,
  0x00#8, 0x29#8, 0x08#8, 0x01#8, 0x10#8, 0x01#8, 0x18#8, 0xcb#8, 0xa3#8, 0x97#8, 0x91#8, 0x06#8, 0x20#8, 0xaf#8, 0xca#8, 0x8d#8,
  0xbb#8, 0x02#8, 0x32#8, 0x17#8, 0x08#8, 0x02#8, 0x10#8, 0x1e#8, 0x18#8, 0x00#8, 0x20#8, 0x0e#8, 0x28#8, 0x32#8, 0x31#8, 0x00#8,
  0x00#8, 0x00#8, 0x00#8, 0x00#8, 0x00#8, 0x00#8, 0x00#8, 0x40#8, 0x00#8, 0x48#8, 0x00#8, 0x62#8, 0x65#8, 0x72#8, 0x74#8, 0x00#8,
  0x3f#8, 0x08#8, 0x01#8, 0x10#8, 0x02#8, 0x18#8, 0xcb#8, 0xa3#8, 0x97#8, 0x91#8, 0x06#8, 0x20#8, 0xaf#8, 0xca#8, 0x8d#8, 0xbb#8,
  0x02#8, 0x42#8, 0x2d#8, 0x09#8, 0xec#8, 0x51#8, 0xb8#8, 0xde#8, 0xf3#8, 0x76#8, 0x52#8, 0x41#8, 0x11#8, 0x8f#8, 0xc2#8, 0xf5#8,
  0x28#8, 0x96#8, 0x19#8, 0x13#8, 0xc1#8, 0x19#8, 0x33#8, 0x33#8, 0x33#8, 0x13#8, 0x59#8, 0x80#8, 0x4f#8, 0x41#8, 0x21#8, 0xe1#8,
  0x7a#8, 0x14#8, 0xae#8, 0x47#8, 0x21#8, 0x30#8, 0x40#8, 0x29#8, 0x00#8, 0x00#8, 0x00#8, 0x00#8, 0x00#8, 0x00#8, 0x00#8, 0x00#8]

/-- `read_packets`, lines 148–156: 17 packets. -/
example : (match packetsOf prostNavmon galmonPackets false with | .ok (ms, e) => ms.length == 17 && e.isNone | _ => false) = true := by decide +kernel

/-- `bad_magic` and `short_packet`, lines 158–169. -/
example : (match (ReadTransport.new ⟨galmonPackets.drop 2, false⟩).readPacket prostNavmon with | .ok (_, .error _) => true | _ => false) = true ∧
    (match (ReadTransport.new ⟨galmonPackets.take 10, false⟩).readPacket prostNavmon with | .ok (_, .error _) => true | _ => false) = true := by
  decide +kernel

/-- `read_packets_write_packets`, lines 171–190: written again, the packets are the same bytes. -/
example : (match packetsOf prostNavmon galmonPackets false with | .ok (ms, _) => decide (frames prostNavmon ms = galmonPackets) | _ => false) = true := by
  decide +kernel

end Verif.UnitTests
