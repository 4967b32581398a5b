import Verif.Tests.Scenario

/-! # The DSMs of the scenarios, computed beforehand

Each literal is proved equal to what the transmitter of `Tests/Scenario.lean` computes. -/

namespace Verif.Sim

/-- DSM-KROOT of chain 1 signed with key 1, nominal header. -/
def kroot11 : List Byte :=
  [33, 64, 73, 33, 4, 176, 10, 17, 34, 51, 68, 85, 102, 105, 105, 105, 105, 105, 105, 105, 105, 105, 105, 
    105, 105, 105, 105, 105, 105, 214, 214, 214, 214, 214, 214, 214, 214, 214, 214, 214, 214, 214, 214, 214, 214, 
    214, 214, 214, 214, 214, 214, 214, 214, 214, 214, 214, 214, 214, 214, 214, 214, 5, 5, 5, 5, 5, 5, 5, 5, 5, 5, 
    5, 5, 5, 5, 5, 5, 5, 5, 5, 5, 5, 5, 5, 5, 5, 5, 5, 5, 5, 5, 5, 5, 49, 49, 49, 49, 49, 49, 49, 49, 49, 49, 
    49].map (BitVec.ofNat 8)

/-- The same under the header "don't use, chain 1 revoked". -/
def kroot11rev : List Byte :=
  [33, 64, 73, 33, 4, 176, 10, 17, 34, 51, 68, 85, 102, 105, 105, 105, 105, 105, 105, 105, 105, 105, 105, 
    105, 105, 105, 105, 105, 105, 151, 151, 151, 151, 151, 151, 151, 151, 151, 151, 151, 151, 151, 151, 151, 151, 
    151, 151, 151, 151, 151, 151, 151, 151, 151, 151, 151, 151, 151, 151, 151, 151, 5, 5, 5, 5, 5, 5, 5, 5, 5, 5, 
    5, 5, 5, 5, 5, 5, 5, 5, 5, 5, 5, 5, 5, 5, 5, 5, 5, 5, 5, 5, 5, 5, 87, 87, 87, 87, 87, 87, 87, 87, 87, 87, 
    87].map (BitVec.ofNat 8)

/-- The same under the header with the alert flag. -/
def kroot11alert : List Byte :=
  [33, 64, 73, 33, 4, 176, 10, 17, 34, 51, 68, 85, 102, 105, 105, 105, 105, 105, 105, 105, 105, 105, 105, 
    105, 105, 105, 105, 105, 105, 117, 117, 117, 117, 117, 117, 117, 117, 117, 117, 117, 117, 117, 117, 117, 117, 
    117, 117, 117, 117, 117, 117, 117, 117, 117, 117, 117, 117, 117, 117, 117, 117, 5, 5, 5, 5, 5, 5, 5, 5, 5, 5, 
    5, 5, 5, 5, 5, 5, 5, 5, 5, 5, 5, 5, 5, 5, 5, 5, 5, 5, 5, 5, 5, 5, 235, 235, 235, 235, 235, 235, 235, 235, 
    235, 235, 235].map (BitVec.ofNat 8)

/-- DSM-KROOT of chain 1 signed with key 2. -/
def kroot12 : List Byte :=
  [34, 64, 73, 33, 4, 176, 10, 17, 34, 51, 68, 85, 102, 105, 105, 105, 105, 105, 105, 105, 105, 105, 105, 
    105, 105, 105, 105, 105, 105, 10, 10, 10, 10, 10, 10, 10, 10, 10, 10, 10, 10, 10, 10, 10, 10, 10, 10, 10, 10, 
    10, 10, 10, 10, 10, 10, 10, 10, 10, 10, 10, 10, 5, 5, 5, 5, 5, 5, 5, 5, 5, 5, 5, 5, 5, 5, 5, 5, 5, 5, 5, 5, 
    5, 5, 5, 5, 5, 5, 5, 5, 5, 5, 5, 5, 50, 50, 50, 50, 50, 50, 50, 50, 50, 50, 50].map (BitVec.ofNat 8)

/-- DSM-KROOT of chain 2 signed with key 1. -/
def kroot21 : List Byte :=
  [33, 128, 73, 33, 4, 176, 10, 17, 34, 51, 68, 85, 102, 43, 43, 43, 43, 43, 43, 43, 43, 43, 43, 43, 43, 43, 
    43, 43, 43, 42, 42, 42, 42, 42, 42, 42, 42, 42, 42, 42, 42, 42, 42, 42, 42, 42, 42, 42, 42, 42, 42, 42, 42, 
    42, 42, 42, 42, 42, 42, 42, 42, 5, 5, 5, 5, 5, 5, 5, 5, 5, 5, 5, 5, 5, 5, 5, 5, 5, 5, 5, 5, 5, 5, 5, 5, 5, 5, 
    5, 5, 5, 5, 5, 5, 89, 89, 89, 89, 89, 89, 89, 89, 89, 89, 89].map (BitVec.ofNat 8)

/-- DSM-PKR of public key 2. -/
def pkr2 : List Byte :=
  [114, 19, 19, 19, 19, 19, 19, 19, 19, 19, 19, 19, 19, 19, 19, 19, 19, 19, 19, 19, 19, 19, 19, 19, 19, 19, 
    19, 19, 19, 19, 19, 19, 19, 91, 91, 91, 91, 91, 91, 91, 91, 91, 91, 91, 91, 91, 91, 91, 91, 91, 91, 91, 91, 
    91, 91, 91, 91, 91, 91, 91, 91, 91, 91, 91, 91, 219, 219, 219, 219, 219, 219, 219, 219, 219, 219, 219, 219, 
    219, 219, 219, 219, 219, 219, 219, 219, 219, 219, 219, 219, 219, 219, 219, 219, 219, 219, 219, 219, 163, 163, 
    163, 163, 163, 163, 163, 163, 163, 163, 163, 163, 163, 163, 163, 163, 163, 163, 163, 163, 163, 163, 163, 163, 
    163, 163, 163, 163, 163, 163, 163, 163, 18, 102, 102, 102, 102, 102, 102, 102, 102, 102, 102, 102, 102, 102, 
    102, 102, 102, 102, 102, 102, 102, 102, 102, 102, 102, 102, 102, 102, 102, 102, 102, 102, 102, 102, 104, 104, 
    104, 104, 104, 104].map (BitVec.ofNat 8)

/-- DSM-PKR with the alert message. -/
def pkr0 : List Byte :=
  [112, 202, 202, 202, 202, 202, 202, 202, 202, 202, 202, 202, 202, 202, 202, 202, 202, 202, 202, 202, 202, 
    202, 202, 202, 202, 202, 202, 202, 202, 202, 202, 202, 202, 192, 192, 192, 192, 192, 192, 192, 192, 192, 192, 
    192, 192, 192, 192, 192, 192, 192, 192, 192, 192, 192, 192, 192, 192, 192, 192, 192, 192, 192, 192, 192, 192, 
    219, 219, 219, 219, 219, 219, 219, 219, 219, 219, 219, 219, 219, 219, 219, 219, 219, 219, 219, 219, 219, 219, 
    219, 219, 219, 219, 219, 219, 219, 219, 219, 219, 163, 163, 163, 163, 163, 163, 163, 163, 163, 163, 163, 163, 
    163, 163, 163, 163, 163, 163, 163, 163, 163, 163, 163, 163, 163, 163, 163, 163, 163, 163, 163, 163, 64, 7, 7, 
    7, 7, 7, 7, 7, 7, 7, 7, 7, 7, 7, 7, 7, 7, 7, 7, 7, 7, 7, 7, 7, 7, 7, 7, 7, 7, 7, 7, 7, 7, 7, 7, 7, 7, 7, 7, 
    7].map (BitVec.ofNat 8)

theorem root_eq : root.val = merkleRoot toy leaf := by decide +kernel
theorem kroot11_eq : kroot11 = krootBytes (chain 1) hdr1 1 10 := by decide +kernel
theorem kroot11rev_eq : kroot11rev = krootBytes (chain 1) (nmaByte 3 1 3) 1 10 := by decide +kernel
theorem kroot11alert_eq : kroot11alert = krootBytes (chain 1) (nmaByte 1 1 7) 1 10 := by decide +kernel
theorem kroot12_eq : kroot12 = krootBytes (chain 1) hdr1 2 10 := by decide +kernel
theorem kroot21_eq : kroot21 = krootBytes (chain 2) hdr1 1 10 := by decide +kernel
theorem pkr2_eq : pkr2 = pkrBytes 2 := by decide +kernel
theorem pkr0_eq : pkr0 = pkrBytes 0 := by decide +kernel

/-- `n` nominal subframes. -/
def nominal (n : Nat) : List Call := nominalWith kroot11 n

end Verif.Sim
