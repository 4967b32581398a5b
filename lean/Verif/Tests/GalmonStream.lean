import Verif.Model.Galmon
import Verif.Tests.Scenarios

/-! # A stream of packets with eight subframes of the simulated transmitter -/

namespace Verif
namespace Sim

/-- The word sent with page `j` of a subframe. -/
def pageWord (j : Nat) : InavWord := word ([1, 2, 3, 4, 5, 6, 10].getD j 0) 0x35

/-- Page `j` of subframe `n` of the nominal transmission of satellite 1, with its OSNMA data. -/
def pageData (n j : Nat) : OsnmaDataMessage :=
  match (subframe (chain 1) 1 2 (36000 + 30 * n) 1 0x35 hdr1 3 (n % 8) kroot11)[j]? with
  | some (.osnma d _ _) => d
  | _ => fix 5 []

/-- The packet of that page. -/
def pagePacket (n j : Nat) : GalileoInav :=
  ⟨1200, BitVec.ofNat 32 (36000 + 30 * n + 2 * j), 2, 1, (pageWord j).val, some 1, some (pageData n j).val, none, none, none, none, none⟩

/-- Eight subframes of packets. -/
def pageNumbers : List (Nat × Nat) := (List.range 8).flatMap fun n => (List.range 15).map fun j => (n, j)
def packets8 : List GalileoInav := pageNumbers.map fun x => pagePacket x.1 x.2

/-- The calls expected. -/
def calls8 : List Call := pageNumbers.flatMap fun x =>
  [.inav (pageWord x.2) (sv 1) (gst (36000 + 30 * x.1 + 2 * x.2)) .E1B, .osnma (pageData x.1 x.2) (sv 1) (gst (36000 + 30 * x.1 + 2 * x.2))]

theorem calls8_outcome : outcome withKey calls8 =
    some ([[0, 82, 1, 1, 36210], [3, 1, 36210]], some (40, 36210), some (40, 36210)) := by decide +kernel

end Sim
end Verif
