import Verif.Model.Tesla

/-! # Specification: what a tag is, and when it verifies (ICD 6.7)

Independent of the code of `tesla.rs` and `bitfields.rs`: messages are written out as bit layouts. -/

namespace Verif

/-- Code of the NMA status field (ICD Table 4). -/
def nmasCode : NmaStatus → Nat
  | .Reserved => 0
  | .Test => 1
  | .Operational => 2
  | .DontUse => 3

/-- The bits that are MACed for a tag (ICD Eq. 20, 22): PRND (only for tags other than the first),
PRNA, GST as 12-bit week and 20-bit time of week, CTR, NMA status, navigation data. -/
def tagBits (ctr prnd : Nat) (prna : Svn) (gst : Gst) (st : NmaStatus) (data : List Bool) : List Bool :=
  (if ctr = 1 then [] else storeBe 8 prnd) ++ storeBe 8 prna.val ++ storeBe 12 gst.wn
    ++ storeBe 20 gst.tow ++ storeBe 8 ctr ++ storeBe 2 (nmasCode st) ++ data

/-- The MACed bytes: the bits above, padded with zeros to a whole number of bytes. -/
def tagMessage (ctr prnd : Nat) (prna : Svn) (gst : Gst) (st : NmaStatus) (data : List Bool) :
    List Byte := packBytes (tagBits ctr prnd prna gst st data)

/-- The MAC of a byte string with a TESLA key, as bits. -/
def macBits (C : Crypto) (k : Key) (m : List Byte) : List Bool :=
  match k.chain.macFunction with
  | .HmacSha256 => bitsOf (C.hmac k.bytes m)
  | .CmacAes => bitsOf (C.cmac k.bytes m)

/-- The MAC function of the chain can be used with its key size (CMAC-AES-128 needs 16 bytes). -/
def Key.MacUsable (k : Key) : Prop :=
  k.chain.macFunction = .CmacAes → k.chain.keySizeBytes = 16

/-- A tag as transmitted: its counter (1 for the first tag of the MACK), its bits, and the fields of
its tag-info. -/
structure TagSpec where
  ctr : Nat
  tag : List Bool
  prnd : Nat
  adkd : Nat
  cop : Nat
  deriving DecidableEq

/-- The tag verifies for the data: it is the truncated MAC. -/
def TagSpec.Verifies (t : TagSpec) (C : Crypto) (k : Key) (prna : Svn) (gst : Gst) (st : NmaStatus)
    (data : List Bool) : Prop :=
  (macBits C k (tagMessage t.ctr t.prnd prna gst st data)).take t.tag.length = t.tag

instance (t : TagSpec) (C : Crypto) (k : Key) (prna : Svn) (gst : Gst) (st : NmaStatus)
    (data : List Bool) : Decidable (t.Verifies C k prna gst st data) :=
  inferInstanceAs (Decidable (_ = _))

/-- Tag number `j` of a MACK message (ICD Figures 8, 9, 11) of a chain with the given tag size:
the first tag is followed by a 12-bit MACSEQ and a 4-bit COP and always authenticates the CED of the
transmitting satellite; the other tags are followed by PRND (8), ADKD (4), COP (4). -/
def mackTag (bits : List Bool) (ts : Nat) (prna : Svn) (j : Nat) : TagSpec :=
  let b := bits.drop (j * (ts + 16))
  if j = 0 then ⟨1, b.take ts, prna.val, 0, loadBe ((b.drop (ts + 12)).take 4)⟩
  else ⟨j + 1, b.take ts, loadBe ((b.drop ts).take 8), loadBe ((b.drop (ts + 8)).take 4),
    loadBe ((b.drop (ts + 12)).take 4)⟩

/-- All the tags of a MACK message of a chain, in order. -/
def mackTags (msg : MackMessage) (c : Chain) (prna : Svn) : List TagSpec :=
  (List.range ((480 - 8 * c.keySizeBytes) / (c.tagSizeBits + 16))).map
    (mackTag (bitsOf msg.val) c.tagSizeBits prna)

end Verif
