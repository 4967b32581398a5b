import Verif.Props.GalmonRuns
import Verif.Props.Prost
import Verif.Tests.GalmonStream

/-! # A concrete run of `galmon-osnma` (examples for C44, C56, C60)

A stream of protobuf packets with eight subframes of the simulated transmitter, from bytes to the lines logged. -/

namespace Verif
open GalileoInav GalmonOsnma

/-- The calls for packets of E1-B in order of time and at times that are not 15 s into a subframe. -/
theorem callsForAll_sorted {f : GalileoInav → List Call} {is : List GalileoInav} : ∀ {seen : List GalileoInav},
    (∀ q ∈ seen, ∀ i ∈ is, q.subframeNo ≤ i.subframeNo) → is.Pairwise (fun a b => a.subframeNo ≤ b.subframeNo) →
    (∀ i ∈ is, i.sigid = some 1 ∧ i.secs % 30 ≠ 15 ∧ (bitsOf i.contents).take 6 ≠ List.replicate 6 true) →
    (∀ i ∈ is, i.CallsFor i.secs (f i)) → CallsForAll seen is (is.flatMap f) := by
  induction is with
  | nil => intro seen _ _ _ _; exact .nil _
  | cons i is ih =>
    intro seen h1 h2 h3 h4
    rw [List.flatMap_cons]
    rw [List.pairwise_cons] at h2
    obtain ⟨k1, k2, k3⟩ := h3 i (by simp)
    have hfed : i.fedSecs seen = i.secs := by unfold fedSecs; rw [if_neg (fun h => k2 h.1)]
    refine .used ⟨.inl k1, fun q hq => h1 q hq i (by simp), k3⟩ (by rw [hfed]; exact h4 i (by simp)) (ih ?_ h2.2 ?_ ?_)
    · intro q hq x hx
      rcases List.mem_append.1 hq with hq | hq
      · exact h1 q hq x (by simp [hx])
      · rw [List.mem_singleton] at hq; subst hq; exact h2.1 x hx
    · exact fun x hx => h3 x (by simp [hx])
    · exact fun x hx => h4 x (by simp [hx])

namespace Sim

theorem flatMap_congr' {α β : Type} {f g : α → List β} {l : List α} (h : ∀ x ∈ l, f x = g x) : l.flatMap f = l.flatMap g := by
  induction l with
  | nil => rfl
  | cons a l ih => rw [List.flatMap_cons, List.flatMap_cons, h a (by simp), ih fun x hx => h x (by simp [hx])]

theorem fix_val {n : Nat} (b : Bytes n) : fix n b.val = b := by
  unfold fix
  rw [dif_pos b.property]

theorem mem_pageNumbers {x : Nat × Nat} (h : x ∈ pageNumbers) : x.1 < 8 ∧ x.2 < 15 := by
  unfold pageNumbers at h
  simp only [List.mem_flatMap, List.mem_map, List.mem_range] at h
  obtain ⟨n, hn, j, hj, rfl⟩ := h
  exact ⟨hn, hj⟩

theorem pagePacket_secs {n j : Nat} (hn : n < 8) (hj : j < 15) : (pagePacket n j).secs = 725796000 + 30 * n + 2 * j := by
  unfold secs pagePacket
  have h1 : (1200 : BitVec 32).toNat = 1200 := rfl
  simp only [BitVec.toNat_ofNat, Nat.reducePow, h1]
  omega

theorem gst_abs {t : Nat} (h : t < 604800) : (gst t).abs = 725760000 + t := by
  unfold gst
  rw [dif_pos h]
  unfold Gst.abs
  dsimp only
  omega

theorem packets8_fresh : withKey.Fresh S := .inr ⟨pub 1, false, rfl⟩

theorem packets8_calls : CallsForAll [] packets8 calls8 := by
  have h := callsForAll_sorted (f := fun i => [.inav (fix 16 i.contents) (sv 1) (gst (i.secs - 725760000)) .E1B,
    .osnma (fix 5 (i.reserved1.getD [])) (sv 1) (gst (i.secs - 725760000))]) (is := packets8) (seen := []) (fun q hq => by cases hq) ?_ ?_ ?_
  · have e : calls8 = packets8.flatMap (fun i => [.inav (fix 16 i.contents) (sv 1) (gst (i.secs - 725760000)) .E1B,
        .osnma (fix 5 (i.reserved1.getD [])) (sv 1) (gst (i.secs - 725760000))]) := by
      unfold calls8 packets8
      rw [List.flatMap_map]
      refine flatMap_congr' fun x hx => ?_
      obtain ⟨hn, hj⟩ := mem_pageNumbers hx
      rw [pagePacket_secs hn hj]
      have e1 : fix 16 (pagePacket x.1 x.2).contents = pageWord x.2 := fix_val _
      have e2 : fix 5 ((pagePacket x.1 x.2).reserved1.getD []) = pageData x.1 x.2 := fix_val _
      have e3 : 725796000 + 30 * x.1 + 2 * x.2 - 725760000 = 36000 + 30 * x.1 + 2 * x.2 := by omega
      rw [e1, e2, e3]
    rw [e]
    exact h
  · decide +kernel
  · decide +kernel
  · intro i hi
    obtain ⟨x, hx, rfl⟩ := List.mem_map.1 hi
    obtain ⟨hn, hj⟩ := mem_pageNumbers hx
    refine ⟨fix 16 (pagePacket x.1 x.2).contents, sv 1, gst ((pagePacket x.1 x.2).secs - 725760000), .E1B, ?_, ?_, ?_, rfl, ?_⟩
    · exact congrArg Subtype.val (fix_val (pageWord x.2))
    · rfl
    · rw [pagePacket_secs hn hj, gst_abs (by omega)]
      omega
    · exact ⟨_, congrArg Subtype.val (fix_val (pageData x.1 x.2)), rfl⟩

theorem packets8_ok : ∀ i ∈ packets8, i.payload ≤ 60000 ∧ i.TimeOk ∧ 7650 ≤ i.secs ∧ i.sigid.isSome = true ∧ i.contents.length = 16 ∧
    i.gnssSv.toNat = 1 ∧ ∀ d, i.reserved1 = some d → d.length = 5 := by
  intro i hi
  obtain ⟨x, hx, rfl⟩ := List.mem_map.1 hi
  obtain ⟨hn, hj⟩ := mem_pageNumbers hx
  have hs := pagePacket_secs hn hj
  have h1 : (pagePacket x.1 x.2).contents.length = 16 := (pageWord x.2).property
  have h2 : (pagePacket x.1 x.2).reserved1 = some (pageData x.1 x.2).val := rfl
  have h3 : (pageData x.1 x.2).val.length = 5 := (pageData x.1 x.2).property
  refine ⟨?_, by unfold TimeOk; omega, by omega, rfl, h1, rfl, ?_⟩
  · unfold GalileoInav.payload
    rw [h1, h2, Option.getD_some, h3]
    exact (by decide : 16 + 5 + 0 + 0 + 0 + 0 ≤ 60000)
  · intro d hd
    rw [h2] at hd
    cases hd
    exact h3

/-- The packets as a stream of bytes. -/
def stream8 : Source := ⟨frames prostNavmon (packets8.map prostNavmon.ofInav), false⟩

theorem stream8_packets : packetsOf prostNavmon stream8.bytes stream8.fails = .ok (packets8.map prostNavmon.ofInav, none) := by
  have hp := packetsOf_frames prostNavmon_lawful (packets8.map prostNavmon.ofInav) (by
    intro m hm
    obtain ⟨i, hi, rfl⟩ := List.mem_map.1 hm
    exact prostNavmon_small i (packets8_ok i hi).1) [] false
  rw [List.append_nil, packetsOf_nil] at hp
  show packetsOf prostNavmon (frames prostNavmon (packets8.map prostNavmon.ofInav)) false = _
  rw [hp]; simp

theorem stream8_inav : inavPackets prostNavmon (packets8.map prostNavmon.ofInav) = packets8 := by
  unfold inavPackets
  rw [List.filterMap_map]
  have : (prostNavmon.gi ∘ prostNavmon.ofInav) = some := by funext i; exact prostNavmon_lawful.gi_ofInav i
  rw [this, List.filterMap_some, List.filter_eq_self]
  exact fun i hi => (packets8_ok i hi).2.2.2.1

/-- **Example (C44, C56, C60).**  `galmon-osnma`, reading the bytes of these packets with the codec of `navmon.proto`, runs to the end, makes the calls
expected, and logs the CED and the timing parameters of satellite 1. -/
theorem galmon_example (checks : Bool) : ∃ g : GalmonOsnma toy,
    galmonOsnmaMain S prostNavmon checks withKey stream8 = .ok (g, none) ∧
      g.calls = calls8 ∧ ∀ kd, ∃ d, g.osnma.get S kd (sv 1) = .ok (some d) ∧ d.authbits = 40 ∧
        ∃ r, (reportsOf kd (sv 1) g.reports).getLast? = some r ∧ r.data.data = d.data := by
  have hS : S.Consistent := ⟨by decide, by decide, by decide, by decide, by decide⟩
  obtain ⟨log, o, hlog, _, hg1, hg2⟩ := outcome_some calls8_outcome
  have hpay := packets8_ok
  have hp := stream8_packets
  have hin := stream8_inav
  obtain ⟨g, hg⟩ := (C60_returns_iff (N := prostNavmon) (checks := checks) (input := stream8) hS
    packets8_fresh hp (.inr (by rw [hin]; exact fun i hi => (hpay i hi).2.1)) (by rw [hin]; exact fun i hi => (hpay i hi).2.2.1)).2
    ⟨by
      rw [hin]
      intro pre i post he
      obtain ⟨_, h2, _, _, h5, h6, h7⟩ := hpay i (by rw [he]; simp)
      rintro (hf | ⟨_, hf | ⟨_, hf | ⟨d, hd, hf⟩⟩⟩)
      · exact hf h2
      · rw [h6] at hf; exact hf ⟨by decide, by decide⟩
      · exact hf h5
      · exact hf (h7 d hd),
    calls8, by rw [hin]; exact packets8_calls, ⟨o, hlog.run⟩⟩
  obtain ⟨ms, hp3, hrun, hc⟩ := C44_calls hg
  rw [hp] at hp3
  cases hp3
  rw [hin] at hc
  have hcalls : g.calls = calls8 := C44_calls_unique (hc (.inr fun i hi => (hpay i hi).2.1)) packets8_calls
  rw [hcalls, hlog.run] at hrun
  cases hrun
  refine ⟨g, hg, hcalls, ?_⟩
  have fin : ∀ kd, got S g.osnma kd 1 = some (40, 36210) → ∃ d, g.osnma.get S kd (sv 1) = .ok (some d) ∧ d.authbits = 40 ∧
      ∃ r, (reportsOf kd (sv 1) g.reports).getLast? = some r ∧ r.data.data = d.data := by
    intro kd hgot
    obtain ⟨d, h1, h2, _⟩ := got_some hgot
    exact ⟨d, h1, h2, C56_nothing_missed hS packets8_fresh hg kd (sv 1) h1⟩
  intro kd
  cases kd
  · exact fin _ hg1
  · exact fin _ hg2

/-- **Example (C60).**  The hypotheses of `C60_week_numbers` hold of this stream, also in a build without overflow checks. -/
example : ∃ (ms : List prostNavmon.Msg) (g : GalmonOsnma toy), packetsOf prostNavmon stream8.bytes stream8.fails = .ok (ms, none) ∧
    galmonOsnmaMain S prostNavmon false withKey stream8 = .ok (g, none) ∧ inavPackets prostNavmon ms = packets8 ∧
      ∀ i ∈ packets8, i.gnssWn.toNat < 65536 := by
  obtain ⟨g, hg, _⟩ := galmon_example false
  refine ⟨_, g, stream8_packets, hg, stream8_inav, ?_⟩
  have := C60_week_numbers stream8_packets hg
  rwa [stream8_inav] at this

end Sim
end Verif
