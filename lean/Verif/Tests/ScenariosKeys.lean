import Verif.Tests.Scenarios

/-! # More runs of the simulated transmitter: change of public key -/

namespace Verif.Sim

/-- Change of public key: KROOT with key 1, then key 2 arrives, then a KROOT with key 2. -/
theorem keyChange : outcome withBoth (sendDsm hdr1 3 8 36000 kroot11 ++ sendDsm hdr1 13 13 36240 pkr2 ++
      sendDsm hdr1 4 8 36630 kroot12) =
    some ([[0, 82, 1, 1, 36210], [1, 2], [0, 82, 2, 1, 36840]], none, none) := by decide +kernel

/-- After a KROOT with key 2, a KROOT with key 1 is ignored. -/
theorem oldKeyIgnored : outcome withBoth (sendDsm hdr1 13 13 36000 pkr2 ++
      sendDsm hdr1 4 8 36390 kroot12 ++ sendDsm hdr1 5 8 36630 kroot11) =
    some ([[1, 2], [0, 82, 2, 1, 36600]], none, none) := by decide +kernel

end Verif.Sim
