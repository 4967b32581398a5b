import Verif.Props.GalmonExample
import Verif.Props.SerialRuns
import Verif.Props.LinkOutput
import Verif.Props.Complete
import Verif.Props.Panics

/-! # The serial set-up on a concrete stream (examples for C45, C58, C59, C61) -/

namespace Verif
open GalileoInav

theorem Link.Reaches.trans {C : Crypto} {S : Storage} {s t u : Link C} (h1 : Link.Reaches S s t) (h2 : Link.Reaches S t u) : Link.Reaches S s u := by
  induction h2 with
  | refl => exact h1
  | step _ h ih => exact .step ih h

/-- **C58, all delivered.**  If the black box survives the calls that the client asks for, then from every point of every interleaving a point where nothing
more can happen is reachable (and, by `C58_terminates`, is reached under every schedule), and at every such point all the calls have been made. -/
theorem C58_all_delivered {C : Crypto} {S : Storage} (hS : S.Consistent) {o o' : Osnma C} (h0 : o.Fresh S) {cs : List Call} {lines : List (List Byte)}
    (hl : LinesFor cs lines) (hrun : run S o cs = .ok o') (hweek : ∀ c ∈ inavsOf cs, 7650 ≤ c.gst.abs) {s : Link C}
    (h : Link.Reaches S (Link.init o lines) s) :
    (∃ t, Link.Reaches S s t ∧ ¬ ∃ u, Link.Step S t u) ∧
    ((¬ ∃ u, Link.Step S s u) → s.fw.calls = cs ∧ s.fw.osnma = o') := by
  constructor
  · have : ∀ s : Link C, Link.Reaches S (Link.init o lines) s → ∃ t, Link.Reaches S s t ∧ ¬ ∃ u, Link.Step S t u := by
      intro s
      induction s using Link.wf_less.induction with
      | _ s ih =>
        intro h
        by_cases hs : ∃ u, Link.Step S s u
        · obtain ⟨u, hu⟩ := hs
          obtain ⟨t, ht, hend⟩ := ih u (Link.step_less (Link.inv_reaches (Link.inv_init (S := S) o hl) h) hu) (.step h hu)
          exact ⟨t, Link.Reaches.trans (.step (.refl _) hu) ht, hend⟩
        · exact ⟨s, .refl _, hs⟩
    exact this s h
  · intro hend
    have hall : s.fw.calls = cs := by
      rcases C58_delivered hl h hend with hc | ⟨_, c, hpre, hno⟩
      · exact hc
      · exfalso
        obtain ⟨post, hpost⟩ := hpre
        obtain ⟨o1, h1⟩ := run_prefix (b := post) (by rw [hpost]; exact hrun)
        refine hno ⟨o1, h1, fun kd svn => C38_get_returns hS h0 h1 (fun c hc => hweek c ?_) kd svn⟩
        rw [← hpost]
        unfold inavsOf at hc ⊢
        rw [List.filterMap_append]
        exact List.mem_append_left _ hc
    refine ⟨hall, ?_⟩
    have h2 := (C58_calls_in_order hl h).2
    rw [hall, hrun] at h2
    exact (Res.ok.inj h2).symm

/-- **C61, every schedule.**  Whenever galmon-osnma runs to the end, the client does so too and, over the link, under every schedule and every delay, firmware and client come to a point
where nothing more can happen; at every such point the firmware has made the calls of galmon-osnma and its black box is that of galmon-osnma, and the client has printed the transcript of
all the calls but the last. -/
theorem C61_remote_every_schedule {C : Crypto} {S : Storage} {N : Navmon} (hS : S.Consistent) {o0 : Osnma C} (h0 : o0.Fresh S) {checks : Bool} {input : Source} {ms : List N.Msg} {e : Option IoError}
    (hp : packetsOf N input.bytes input.fails = .ok (ms, e)) (ht : checks = true ∨ ∀ i ∈ inavPackets N ms, i.TimeOk)
    (hv : ∀ i ∈ inavPackets N ms, 1 ≤ i.gnssSv.toNat ∧ i.gnssSv.toNat ≤ 36) (hsec : ∀ i ∈ inavPackets N ms, 7650 ≤ i.secs)
    {g : GalmonOsnma C} (hg : galmonOsnmaMain S N checks o0 input = .ok (g, e)) :
    ∃ c, clientMain N checks input = .ok (c, e) ∧ ∀ s, Link.Reaches S (Link.init o0 c.sent) s →
      (∃ t, Link.Reaches S s t ∧ ¬ ∃ u, Link.Step S t u) ∧
      ((¬ ∃ u, Link.Step S s u) → s.fw.calls = g.calls ∧ s.fw.osnma = g.osnma ∧
        (g.calls = [] → s.shown = []) ∧ (g.calls ≠ [] → Transcript S o0 g.calls.dropLast s.shown)) := by
  obtain ⟨c, hc, hl, _⟩ := C61_remote hS h0 hp ht hv hsec hg
  obtain ⟨ms', hp', hrun, hcalls⟩ := C44_calls hg
  rw [hp] at hp'
  cases hp'
  refine ⟨c, hc, fun s hs => ?_⟩
  obtain ⟨h1, h2⟩ := C58_all_delivered hS h0 hl hrun (callsForAll_late (hcalls ht) hsec) hs
  refine ⟨h1, fun hend => ?_⟩
  obtain ⟨h3, h4⟩ := h2 hend
  exact ⟨h3, h4, (C98_shown_at_the_end hl hs hend (C98_not_halted hl hs h3)).2⟩

/-- **C98, a panic is the end of the session.**  If the black box survives the calls `pre` and panics at `c`, after which the client has at least one line more, then under every schedule the
firmware halts at `c`: the client prints the transcript of `pre` and the echo of `c`, and nothing of the later calls is made or printed. -/
theorem C98_panic_ends_session {C : Crypto} {S : Storage} (hS : S.Consistent) {o o' : Osnma C} (h0 : o.Fresh S) {pre post : List Call} {c d : Call} {lines : List (List Byte)}
    (hl : LinesFor (pre ++ c :: d :: post) lines) (hrun : run S o pre = .ok o') (hweek : ∀ c ∈ inavsOf pre, 7650 ≤ c.gst.abs) (hc : (c.run S o').Panics) {s : Link C}
    (h : Link.Reaches S (Link.init o lines) s) (hend : ¬ ∃ u, Link.Step S s u) :
    s.fw.calls = pre ∧ s.fwCtl = .halted ∧ ∃ text echo, Transcript S o pre text ∧ EchoOf c echo ∧ s.shown = text ++ echo := by
  have hnot : ∀ post' : List Call, ¬ ∃ o2, run S o (pre ++ c :: post') = .ok o2 := by
    rintro post' ⟨o2, h2⟩
    obtain ⟨o3, h3⟩ := run_prefix (a := pre ++ [c]) (b := post') (by simpa using h2)
    unfold run at h3 hrun
    rw [loopM_append, hrun] at h3
    change loopM _ [c] o' = _ at h3
    rw [loopM_cons] at h3
    cases hx : c.run S o' with
    | ok o4 => exact absurd hc (by rw [hx]; simp [Res.Panics])
    | panic => rw [hx] at h3; cases h3
  obtain ⟨hpre, hr⟩ := C58_calls_in_order hl h
  have hle : s.fw.calls <+: pre := by
    rcases List.prefix_or_prefix_of_prefix hpre (List.prefix_append pre (c :: d :: post)) with h1 | ⟨q, h1⟩
    · exact h1
    · cases q with
      | nil => rw [← h1]; simp
      | cons x q =>
        exfalso
        obtain ⟨r, hr'⟩ := hpre
        rw [← h1, List.append_assoc, List.append_cancel_left_eq] at hr'
        have : x = c := by simpa using congrArg List.head? hr'
        subst this
        exact hnot q ⟨_, by rw [h1]; exact hr⟩
  have hlt : s.fw.calls ≠ pre ++ c :: d :: post := by
    intro e
    have := hle.length_le
    rw [e] at this
    simp at this
    omega
  rcases C58_delivered hl h hend with hd | ⟨hh, c', hpre', hno⟩
  · exact absurd hd hlt
  have hcalls : s.fw.calls = pre := by
    obtain ⟨q, hq⟩ := hle
    cases q with
    | nil => simpa using hq
    | cons x q =>
      exfalso
      obtain ⟨r, hr'⟩ := hpre'
      rw [← hq] at hr'
      simp only [List.append_assoc, List.append_cancel_left_eq, List.cons_append, List.nil_append, List.cons.injEq] at hr'
      rw [hr'.1] at hno
      obtain ⟨o1, h1⟩ := run_prefix (a := s.fw.calls ++ [x]) (b := q) (by rw [List.append_assoc, List.singleton_append, hq]; exact hrun)
      refine hno ⟨o1, h1, fun kd svn => C38_get_returns hS h0 h1 (fun y hy => hweek y ?_) kd svn⟩
      rw [← hq, show s.fw.calls ++ x :: q = (s.fw.calls ++ [x]) ++ q by simp]
      unfold inavsOf at hy ⊢
      rw [List.filterMap_append]
      exact List.mem_append_left _ hy
  have htodo : s.todo ≠ [] := by
    obtain ⟨_, _, _, _, pending, hcs, hph⟩ := Link.inv_reaches (Link.inv_init (S := S) o hl) h
    rw [hcalls, List.append_cancel_left_eq] at hcs
    subst hcs
    cases hph with
    | talking h1 => rcases h1 with h1 | ⟨h1, _⟩ <;> rw [hh] at h1 <;> cases h1
    | line h1 => rw [hh] at h1; cases h1
    | busy h1 => rw [hh] at h1; cases h1
    | dead _ _ _ h4 _ h6 =>
      cases h4
      intro e
      rw [e] at h6
      cases h6
  obtain ⟨text, echo, rest, c', h1, h2, h3, h4, h5⟩ := C98_last_line_after_panic hS hl h hend hh htodo
  rw [hcalls] at h1 h3 h5
  obtain ⟨r, h3⟩ := h3
  simp only [List.append_assoc, List.append_cancel_left_eq, List.cons_append, List.nil_append, List.cons.injEq] at h3
  rw [h3.1] at h2 h5
  rcases h5 with h5 | ⟨o2, _, h5, _⟩
  · exact ⟨hcalls, hh, text, echo, h1, h2, by rw [h4, h5, List.append_nil]⟩
  · exact absurd ⟨o2, h5⟩ (hnot [])

namespace Sim

/-- **Example (C39, C98).**  A satellite that sends the DSM-KROOT of `C39_counterexample_short_kroot` ends the session: whatever else the client has to send, the firmware halts at the last page of it. -/
theorem panic_example (d : Call) (post : List Call) : ∃ pre c lines, pre ++ [c] = sendDsm hdr1 3 7 36000 shortKroot ∧ LinesFor (pre ++ c :: d :: post) lines ∧
    ∀ s, Link.Reaches S (Link.init withKey lines) s → (¬ ∃ u, Link.Step S s u) →
      s.fw.calls = pre ∧ s.fwCtl = .halted ∧ ∃ text echo, Transcript S withKey pre text ∧ EchoOf c echo ∧ s.shown = text ++ echo := by
  obtain ⟨pre, c, o, h1, h2, h3⟩ := C39_counterexample_short_kroot
  obtain ⟨lines, hl⟩ := LinesFor.exists (pre ++ c :: d :: post)
  refine ⟨pre, c, lines, h1, hl, fun s hs hend => ?_⟩
  refine C98_panic_ends_session ⟨by decide, by decide, by decide, by decide, by decide⟩ packets8_fresh hl h2 (fun x hx => ?_) h3 hs hend
  exfalso
  have h4 : inavsOf (sendDsm hdr1 3 7 36000 shortKroot) = [] := by decide +kernel
  rw [← h1] at h4
  unfold inavsOf at h4 hx
  rw [List.filterMap_append, List.append_eq_nil_iff] at h4
  rw [h4.1] at hx
  cases hx


/-- **Example (C45, C61).**  On the stream of `galmon_example` the client runs to the end, the firmware processes the 240 lines that it sends, and ends with the
data of satellite 1 authenticated. -/
theorem serial_example (checks : Bool) : ∃ s, clientMain prostNavmon checks stream8 = .ok (s, none) ∧ LinesFor calls8 s.sent ∧ s.sent.length = 240 ∧
    ∃ f rest, (Firmware.new withKey).spins S 240 s.sent.flatten = .ok (some (f, rest)) ∧ f.calls = calls8 ∧
      ∀ kd, ∃ d, f.osnma.get S kd (sv 1) = .ok (some d) ∧ d.authbits = 40 := by
  have hS : S.Consistent := ⟨by decide, by decide, by decide, by decide, by decide⟩
  obtain ⟨g, hg, hcalls, hget⟩ := galmon_example checks
  obtain ⟨s, hs, hl, f, rest, hf, h1, h2⟩ := C61_remote hS packets8_fresh stream8_packets
    (.inr (by rw [stream8_inav]; exact fun i hi => (packets8_ok i hi).2.1))
    (by rw [stream8_inav]; intro i hi; rw [(packets8_ok i hi).2.2.2.2.2.1]; exact ⟨by decide, by decide⟩)
    (by rw [stream8_inav]; exact fun i hi => (packets8_ok i hi).2.2.1) hg
  have hlen : s.sent.length = 240 := by
    rw [hl.length, hcalls]
    unfold calls8 pageNumbers
    decide +kernel
  rw [hlen] at hf
  rw [hcalls] at hl h1
  refine ⟨s, hs, hl, hlen, f, rest, hf, h1, fun kd => ?_⟩
  obtain ⟨d, hd, hb, _⟩ := hget kd
  exact ⟨d, by rw [h2]; exact hd, hb⟩

/-- **Example (C61, every schedule).**  On the stream of `galmon_example`, with the lines that the client really sends: under every schedule the firmware ends with the data of satellite 1 authenticated. -/
theorem serial_schedule_example (checks : Bool) : ∃ c, clientMain prostNavmon checks stream8 = .ok (c, none) ∧ c.sent.length = 240 ∧
    ∀ s, Link.Reaches S (Link.init withKey c.sent) s → (¬ ∃ u, Link.Step S s u) →
      s.fw.calls = calls8 ∧ (∀ kd, ∃ d, s.fw.osnma.get S kd (sv 1) = .ok (some d) ∧ d.authbits = 40) ∧ Transcript S withKey calls8.dropLast s.shown := by
  have hS : S.Consistent := ⟨by decide, by decide, by decide, by decide, by decide⟩
  obtain ⟨g, hg, hcalls, hget⟩ := galmon_example checks
  obtain ⟨c, hc, hall⟩ := C61_remote_every_schedule hS packets8_fresh stream8_packets
    (.inr (by rw [stream8_inav]; exact fun i hi => (packets8_ok i hi).2.1))
    (by rw [stream8_inav]; intro i hi; rw [(packets8_ok i hi).2.2.2.2.2.1]; exact ⟨by decide, by decide⟩)
    (by rw [stream8_inav]; exact fun i hi => (packets8_ok i hi).2.2.1) hg
  obtain ⟨c', hc', _, hlen, _⟩ := serial_example checks
  rw [hc] at hc'
  cases hc'
  have hne : calls8 ≠ [] := by unfold calls8 pageNumbers; decide +kernel
  refine ⟨c, hc, hlen, fun s hs hend => ?_⟩
  obtain ⟨h1, h2, _, h3⟩ := (hall s hs).2 hend
  rw [hcalls] at h1 h3
  refine ⟨h1, fun kd => ?_, h3 hne⟩
  obtain ⟨d, hd, hb, _⟩ := hget kd
  exact ⟨d, by rw [h2]; exact hd, hb⟩

/-- **Example (C58, C98).**  The same lines over the byte-level link: under every schedule the firmware ends with the data of satellite 1 authenticated, and the client has
printed the transcript of the first 239 calls. -/
theorem link_example : ∃ lines, LinesFor calls8 lines ∧ ∀ s, Link.Reaches S (Link.init withKey lines) s → (¬ ∃ u, Link.Step S s u) →
    s.fw.calls = calls8 ∧ (∀ kd, ∃ d, s.fw.osnma.get S kd (sv 1) = .ok (some d) ∧ d.authbits = 40) ∧ Transcript S withKey calls8.dropLast s.shown := by
  have hS : S.Consistent := ⟨by decide, by decide, by decide, by decide, by decide⟩
  obtain ⟨lines, hl⟩ := LinesFor.exists calls8
  obtain ⟨g, hg, hcalls, hget⟩ := galmon_example true
  obtain ⟨_, _, hrun, _⟩ := C44_calls hg
  rw [hcalls] at hrun
  refine ⟨lines, hl, fun s hs hend => ?_⟩
  obtain ⟨h1, h2⟩ := (C58_all_delivered hS packets8_fresh hl hrun (by
    intro c hc
    unfold inavsOf calls8 at hc
    obtain ⟨c', hc', hcc⟩ := List.mem_filterMap.1 hc
    obtain ⟨x, hx, hc'⟩ := List.mem_flatMap.1 hc'
    obtain ⟨hn, hj⟩ := mem_pageNumbers hx
    simp only [List.mem_cons, List.not_mem_nil, or_false] at hc'
    rcases hc' with rfl | rfl
    · simp only [Option.some.injEq] at hcc
      subst hcc
      rw [gst_abs (by omega)]
      omega
    · cases hcc) hs).2 hend
  have hne : calls8 ≠ [] := by unfold calls8 pageNumbers; decide +kernel
  refine ⟨h1, fun kd => ?_, (C98_shown_at_the_end hl hs hend (C98_not_halted hl hs h1)).2.2 hne⟩
  obtain ⟨d, hd, hb, _⟩ := hget kd
  exact ⟨d, by rw [h2]; exact hd, hb⟩

end Sim
end Verif
