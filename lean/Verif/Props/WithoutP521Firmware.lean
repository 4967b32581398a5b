import Verif.Props.WithoutP521
import Verif.Props.SerialRuns
import Verif.Props.SamePanics
import Verif.Lemmas.Repeats
import Verif.Lemmas.MoreHeardPair

/-! # C93: the firmware, which is built without P-521 -/

namespace Verif
variable {C : Crypto} {S S' : Storage} {root0 : Option MerkleTreeNode} {pk0 : Option (PublicKey C)} {slow slow' : Bool}
  {hist : List Call} {log : List (KeyEvent C)} {o : Osnma C}

/-- **C93** A build without the feature never accepts a P-521 key nor a KROOT signed with P-521. -/
theorem C93_never_p521 (h : Logs S (Osnma.new S root0 pk0 slow) hist log o) (hC : C.p521 = false) :
    (∀ data pk, KeyEvent.pkr data pk ∈ log → pk.IsP256) ∧
      ∀ hd data pk k g, KeyEvent.kroot hd data pk k g ∈ log → pk.IsP256 ∧ ∃ n, SignedKroot C pk.key hd data .P256Sha256 n := by
  have hg := (keyInv_run h).good
  constructor
  · intro data pk hm
    obtain ⟨a, b, hab⟩ := List.append_of_mem hm
    obtain ⟨_, root, _, hp⟩ := hg a _ b hab
    rcases hp.key with ⟨_, _, _, k, _, hk⟩ | ⟨_, _, _, h5, _⟩
    · exact ⟨k, hk⟩
    · rw [hC] at h5; cases h5
  · intro hd data pk k g hm
    obtain ⟨a, b, hab⟩ := List.append_of_mem hm
    obtain ⟨_, _, _, ⟨f, n, hs⟩, _⟩ := hg a _ b hab
    have hv := hs.sig
    cases hk : pk.key with
    | P256 v =>
      cases f with
      | P256Sha256 => exact ⟨⟨v, hk⟩, n, by rw [← hk]; exact hs⟩
      | P521Sha512 => rw [hk] at hv; exact hv.elim
    | P521 v =>
      rw [hk] at hv
      cases f with
      | P256Sha256 => exact hv.elim
      | P521Sha512 => exact absurd (hC.symm.trans hv.1) (by decide)

/-- All the calls of `galmon-osnma` are late enough, if the packets are. -/
theorem CallsForAll.late {n : Nat} {seen is : List GalileoInav} {cs : List Call} (h : CallsForAll seen is cs) (hsec : ∀ i ∈ is, n ≤ i.secs) :
    ∀ c ∈ cs, (n : Int) ≤ c.gst.abs := by
  induction h with
  | nil => intro c hc; cases hc
  | @used seen rest i now later hu hn _ ih =>
    intro c hc
    rcases List.mem_append.1 hc with hc | hc
    · obtain ⟨w, v, gg, b, _, _, h3, _, h5⟩ := hn
      have hge : i.secs ≤ i.fedSecs seen := by unfold GalileoInav.fedSecs; split <;> omega
      have hi := hsec i (by simp)
      have : c.gst = gg := by
        cases hr : i.reserved1 with
        | none => rw [hr] at h5; simp only at h5; subst h5; simp at hc; rw [hc]; rfl
        | some d =>
          rw [hr] at h5
          obtain ⟨_, _, rfl⟩ := h5
          simp at hc
          rcases hc with hc | hc <;> rw [hc] <;> rfl
      rw [this]
      omega
    · exact ih (fun i hi => hsec i (by simp [hi])) c hc
  | dropped _ _ ih => intro c hc; exact ih (fun i hi => hsec i (by simp [hi])) c hc

variable {N : Navmon}

theorem firmware_low (hS : S.Consistent) (h0 : (Osnma.new S root0 pk0 slow).Fresh S) {checks : Bool} {input : Source} {ms : List N.Msg}
    {e : Option IoError} (hp : packetsOf N input.bytes input.fails = .ok (ms, e)) (ht : checks = true ∨ ∀ i ∈ inavPackets N ms, i.TimeOk)
    (hv : ∀ i ∈ inavPackets N ms, 1 ≤ i.gnssSv.toNat ∧ i.gnssSv.toNat ≤ 36) (hsec : ∀ i ∈ inavPackets N ms, 7650 ≤ i.secs)
    {g : GalmonOsnma C} (hg : galmonOsnmaMain S N checks (Osnma.new S root0 pk0 slow) input = .ok (g, e))
    (hlog : Logs S (Osnma.new S root0 pk0 slow) g.calls log g.osnma) (hs : SensibleLog log)
    (hpk : ∀ pk, pk0 = some pk → pk.IsP256) (hk : ∀ data pk, KeyEvent.pkr data pk ∈ log → pk.IsP256)
    (hS' : S'.Consistent) (h0' : (Osnma.new S' root0 pk0 slow' : Osnma C).Fresh S') :
    ∃ s, clientMain N checks input = .ok (s, e) ∧ LinesFor g.calls s.sent ∧
      ∃ f rest, (Firmware.new (Osnma.new S' root0 (pk0.map PublicKey.low) slow' : Osnma C.without521)).spins S' s.sent.length s.sent.flatten =
          .ok (some (f, rest)) ∧ f.calls = g.calls ∧
        ∃ o1, Logs S' (Osnma.new S' root0 pk0 slow') g.calls log o1 ∧ f.osnma = o1.low ∧
          Logs S' (Osnma.new S' root0 (pk0.map PublicKey.low) slow') g.calls (log.map KeyEvent.low) f.osnma := by
  obtain ⟨ms', hp', _, hc⟩ := C44_calls hg
  rw [hp] at hp'
  cases hp'
  have hlate := (hc ht).late hsec
  have hpages : ∀ p ∈ pagesOf g.calls, 360 ≤ p.sub.abs := by
    intro p hm
    obtain ⟨c, hcm, hcs⟩ := page_sub_call hm
    have := hlate c hcm
    rw [← hcs]
    have := Gst.subframe_abs c.gst
    omega
  obtain ⟨o1, ho1⟩ := (C62_same_panics hS hS' h0 h0' rfl hpages hs).1 ⟨_, hlog⟩
  have hl := (low_logs hpk ho1 hk).1
  have hf : (Osnma.new S' root0 (pk0.map PublicKey.low) slow' : Osnma C.without521).Fresh S' := by
    rcases h0' with ⟨r, p, sl, he⟩ | ⟨p, sl, he⟩
    · have hr : root0 = some r := congrArg (fun o : Osnma C => o.data.data.merkleTree) he
      exact .inl ⟨r, _, slow', by rw [hr]; rfl⟩
    · have hr : root0 = none := congrArg (fun o : Osnma C => o.data.data.merkleTree) he
      have hq : pk0 = some p := by
        have := congrArg (fun o : Osnma C => o.data.data.pubkey.current) he
        cases pk0 with
        | none => cases this
        | some q => exact this
      exact .inr ⟨p.low, slow', by rw [hr, hq]; rfl⟩
  obtain ⟨s, h1, h2, f, rest, h3, h4, h5⟩ := C61_remote_other hS h0 hp ht hv hsec hg hS' hf hl.run
  exact ⟨s, h1, h2, f, rest, h3, h4, o1, ho1, h5, h5 ▸ hl⟩

/-- **C93** The firmware is built without the feature and with less storage.  Still, if `galmon-osnma` (with the feature, and any storage) runs to
the end on an input stream, no P-521 key is in use and the chains of the verified KROOTs are sensible (C39), then the firmware processes all
the lines that the client sends, makes the same calls, and accepts the same keys. -/
theorem C93_firmware (hS : S.Consistent) (h0 : (Osnma.new S root0 pk0 slow).Fresh S) {checks : Bool} {input : Source} {ms : List N.Msg}
    {e : Option IoError} (hp : packetsOf N input.bytes input.fails = .ok (ms, e)) (ht : checks = true ∨ ∀ i ∈ inavPackets N ms, i.TimeOk)
    (hv : ∀ i ∈ inavPackets N ms, 1 ≤ i.gnssSv.toNat ∧ i.gnssSv.toNat ≤ 36) (hsec : ∀ i ∈ inavPackets N ms, 7650 ≤ i.secs)
    {g : GalmonOsnma C} (hg : galmonOsnmaMain S N checks (Osnma.new S root0 pk0 slow) input = .ok (g, e))
    (hlog : Logs S (Osnma.new S root0 pk0 slow) g.calls log g.osnma) (hs : SensibleLog log)
    (hpk : ∀ pk, pk0 = some pk → pk.IsP256) (hk : ∀ data pk, KeyEvent.pkr data pk ∈ log → pk.IsP256)
    (hS' : S'.Consistent) (h0' : (Osnma.new S' root0 pk0 slow' : Osnma C).Fresh S') :
    ∃ s, clientMain N checks input = .ok (s, e) ∧ LinesFor g.calls s.sent ∧
      ∃ f rest, (Firmware.new (Osnma.new S' root0 (pk0.map PublicKey.low) slow' : Osnma C.without521)).spins S' s.sent.length s.sent.flatten =
          .ok (some (f, rest)) ∧ f.calls = g.calls ∧
        Logs S' (Osnma.new S' root0 (pk0.map PublicKey.low) slow') g.calls (log.map KeyEvent.low) f.osnma := by
  obtain ⟨s, h1, h2, f, rest, h3, h4, o1, ho1, h5, h6⟩ := firmware_low hS h0 hp ht hv hsec hg hlog hs hpk hk hS' h0'
  exact ⟨s, h1, h2, f, rest, h3, h4, h6⟩

/-- **C93** Under the same hypotheses, what the firmware says to be authenticated `galmon-osnma` says too: if the firmware has no more storage, and
enough for the satellites received, then whatever data it returns, `galmon-osnma` has data that is as recent; and if that is the data of the same
words, it has the same time and at least as many authentication bits. -/
theorem C93_firmware_reports (hS : S.Consistent) (h0 : (Osnma.new S root0 pk0 slow).Fresh S) {checks : Bool} {input : Source} {ms : List N.Msg}
    {e : Option IoError} (hp : packetsOf N input.bytes input.fails = .ok (ms, e)) (ht : checks = true ∨ ∀ i ∈ inavPackets N ms, i.TimeOk)
    (hv : ∀ i ∈ inavPackets N ms, 1 ≤ i.gnssSv.toNat ∧ i.gnssSv.toNat ≤ 36) (hsec : ∀ i ∈ inavPackets N ms, 7650 ≤ i.secs)
    {g : GalmonOsnma C} (hg : galmonOsnmaMain S N checks (Osnma.new S root0 pk0 slow) input = .ok (g, e))
    (hlog : Logs S (Osnma.new S root0 pk0 slow) g.calls log g.osnma) (hs : SensibleLog log)
    (hpk : ∀ pk, pk0 = some pk → pk.IsP256) (hk : ∀ data pk, KeyEvent.pkr data pk ∈ log → pk.IsP256)
    (hS' : S'.Consistent) (h0' : (Osnma.new S' root0 pk0 slow : Osnma C).Fresh S') (hw : S'.Within S) (hfits : Fits S' (inavsOf g.calls)) :
    ∃ s f rest, clientMain N checks input = .ok (s, e) ∧
      (Firmware.new (Osnma.new S' root0 (pk0.map PublicKey.low) slow : Osnma C.without521)).spins S' s.sent.length s.sent.flatten =
        .ok (some (f, rest)) ∧
      Logs S' (Osnma.new S' root0 (pk0.map PublicKey.low) slow) g.calls (log.map KeyEvent.low) f.osnma ∧
      ∀ (kd : NavKind) (v : Svn) (d : NavMessageData), f.osnma.get S' kd v = .ok (some d) → ∃ d', g.osnma.get S kd v = .ok (some d') ∧
        d.gst.abs ≤ d'.gst.abs ∧ ∃ q q', q <+: q' ∧ q' <+: inavsOf g.calls ∧ d.data = kd.expected q v ∧ d'.data = kd.expected q' v ∧
          (q = q' → d'.gst = d.gst ∧ d.authbits ≤ d'.authbits) := by
  obtain ⟨s, h1, h2, f, rest, h3, h4, o1, ho1, h5, h6⟩ := firmware_low (slow' := slow) hS h0 hp ht hv hsec hg hlog hs hpk hk hS' h0'
  refine ⟨s, f, rest, h1, h3, h6, fun kd v d hd => ?_⟩
  have hd1 : o1.get S' kd v = .ok (some d) := by
    rw [h5] at hd
    cases kd <;> exact hd
  obtain ⟨ms', hp', _, hc⟩ := C44_calls hg
  rw [hp] at hp'
  cases hp'
  have hlate := (hc ht).late hsec
  have hord : CallsInOrder g.calls := C44_chronological hg
  obtain ⟨res, hres⟩ := C38_get_returns hS h0 hlog.run (fun c hc => hlate (.inav c.word c.svn c.gst c.band) (mem_inavsOf.1 hc)) kd v
  obtain ⟨_, d', hd', hrest⟩ := C81_more_storage hS' hS hw h0' h0 ho1 hlog hord.pages hord.words hfits hd1 hres
  exact ⟨d', by rw [hres, hd'], hrest⟩

end Verif
