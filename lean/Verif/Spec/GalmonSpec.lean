import Verif.Model.Galmon
import Verif.Spec.Time
import Verif.Spec.NavSpec

/-! # Specification of the Galmon framing -/

namespace Verif

/-- A frame of the Galmon transport protocol: `bert`, the length of the body as a big-endian 16-bit number, and the body. -/
def frame (body : List Byte) : List Byte :=
  [0x62#8, 0x65#8, 0x72#8, 0x74#8] ++ [BitVec.ofNat 8 (body.length / 256), BitVec.ofNat 8 body.length] ++ body

/-- The bodies that fit a frame. -/
def Framable (body : List Byte) : Prop := body.length ≤ 65535

/-- The number of bytes in the `bytes` fields of a packet. -/
def GalileoInav.payload (i : GalileoInav) : Nat :=
  i.contents.length + (i.reserved1.getD []).length + (i.reserved2.getD []).length + (i.sar.getD []).length + (i.spare.getD []).length +
    (i.crc.getD []).length

/-- The bytes for a sequence of packets. -/
def frames (N : Navmon) (ms : List N.Msg) : List Byte := ms.flatMap (fun m => frame (N.encode m))

/-- Everything read from a `Source` up to end of file or the first error. -/
def packetsOf (N : Navmon) (bytes : List Byte) (fails : Bool := false) : Res (List N.Msg × Option IoError) :=
  (ReadTransport.new ⟨bytes, fails⟩).packets N

/-- `write_packet` for each packet, until the first one that fails: the writer, and how many bytes each call reported. -/
def writePackets (N : Navmon) (w : Sink) : List N.Msg → Res (Sink × List (Except IoError Nat))
  | [] => .ok (w, [])
  | m :: ms => do
    match ← writePacket N w m with
    | (w, .error e) => .ok (w, [.error e])
    | (w, .ok n) => do
      let (w, l) ← writePackets N w ms
      pure (w, .ok n :: l)

/-! ## Which packets are used, and with which time -/

/-- The packets that the programs consider: those with a Galileo INAV message that has a `sigid`. -/
def inavPackets (N : Navmon) (ms : List N.Msg) : List GalileoInav :=
  (ms.filterMap N.gi).filter fun i => i.sigid.isSome

namespace GalileoInav

/-- The time stated by the packet, in seconds since the GST epoch. -/
def secs (i : GalileoInav) : Nat := i.gnssWn.toNat * 604800 + i.gnssTow.toNat

/-- The number of the subframe of the packet. -/
def subframeNo (i : GalileoInav) : Nat := i.secs / 30

/-- The time is in the 65536 weeks that can be represented. -/
def TimeOk (i : GalileoInav) : Prop := i.secs < 65536 * 604800

/-- The time of the packet is taken to be wrong: it is 15 s into a subframe, and the last packet before it with another
time was at least 19 s into a subframe. -/
def Suspect (seen : List GalileoInav) (i : GalileoInav) : Prop :=
  i.secs % 30 = 15 ∧ ∃ q, seen.reverse.find? (fun q => q.secs % 30 ≠ 15) = some q ∧ 19 ≤ q.secs % 30

open Classical in
/-- The time given to the black box. -/
noncomputable def fedSecs (seen : List GalileoInav) (i : GalileoInav) : Nat :=
  if i.Suspect seen then i.secs + 14 else i.secs

/-- The packets used: those of E1-B or E5b-I that are not in an earlier subframe than a packet `seen` before, and do not
carry the dummy word type 63. -/
def Used (seen : List GalileoInav) (i : GalileoInav) : Prop :=
  (i.sigid = some 1 ∨ i.sigid = some 5) ∧ (∀ q ∈ seen, q.subframeNo ≤ i.subframeNo) ∧
    (bitsOf i.contents).take 6 ≠ List.replicate 6 true

/-- The band of a packet. -/
def OnBand (i : GalileoInav) : InavBand → Prop
  | .E1B => i.sigid = some 1
  | .E5B => i.sigid = some 5

/-- The calls for a packet: `feed_inav` with its word, and then, if it has OSNMA data, `feed_osnma` with it;
for its satellite, at `secs`. -/
def CallsFor (i : GalileoInav) (secs : Nat) (calls : List Call) : Prop :=
  ∃ (word : InavWord) (svn : Svn) (gst : Gst) (band : InavBand),
    word.val = i.contents ∧ svn.val = i.gnssSv.toNat ∧ gst.abs = secs ∧ i.OnBand band ∧
      match i.reserved1 with
      | none => calls = [.inav word svn gst band]
      | some d => ∃ data : OsnmaDataMessage, data.val = d ∧ calls = [.inav word svn gst band, .osnma data svn gst]

/-- The packets that make the program panic: the time is out of range; or it is not dropped for its time and the satellite does not
exist, or its contents are used and the word or the OSNMA data have a wrong length. -/
def Fatal (seen : List GalileoInav) (i : GalileoInav) : Prop :=
  ¬ i.TimeOk ∨
  (∀ q ∈ seen, q.subframeNo ≤ i.subframeNo) ∧
    (¬ (1 ≤ i.gnssSv.toNat ∧ i.gnssSv.toNat ≤ 36) ∨
      i.Used seen ∧ (i.contents.length ≠ 16 ∨ ∃ d, i.reserved1 = some d ∧ d.length ≠ 5))

/-- The packets that make the client of the serial link panic: the same without the check of the satellite. -/
def ClientFatal (seen : List GalileoInav) (i : GalileoInav) : Prop :=
  ¬ i.TimeOk ∨ i.Used seen ∧ (i.contents.length ≠ 16 ∨ ∃ d, i.reserved1 = some d ∧ d.length ≠ 5)

end GalileoInav

/-- The calls for a sequence of packets that come after those `seen`. -/
inductive CallsForAll : List GalileoInav → List GalileoInav → List Call → Prop
  | nil (seen : List GalileoInav) : CallsForAll seen [] []
  | used {seen rest : List GalileoInav} {i : GalileoInav} {now later : List Call} :
    i.Used seen → i.CallsFor (i.fedSecs seen) now → CallsForAll (seen ++ [i]) rest later → CallsForAll seen (i :: rest) (now ++ later)
  | dropped {seen rest : List GalileoInav} {i : GalileoInav} {later : List Call} :
    ¬ i.Used seen → CallsForAll (seen ++ [i]) rest later → CallsForAll seen (i :: rest) later

/-- The time of a call. -/
def Call.gst : Call → Gst
  | .inav _ _ g _ => g
  | .osnma _ _ g => g

/-! ## What is logged -/

/-- The kind of data of a line logged. -/
def Report.kind (r : Report) : NavKind := if r.timing then .timing else .ced

/-- The lines logged about one kind of data of a satellite, in order. -/
def reportsOf (kd : NavKind) (svn : Svn) (l : List Report) : List Report :=
  l.filter fun r => decide (r.kind = kd ∧ r.svn = svn)

end Verif
