import Verif.Props.SamePanics

/-! # C85: using only Slow MAC never reports more -/

namespace Verif

variable {S : Storage} {C : Crypto} {root0 : Option MerkleTreeNode} {pk0 : Option (PublicKey C)} {hist : List Call}
  {log log' : List (KeyEvent C)} {o o' : Osnma C}

/-- **C85.**  Two receivers, equal but that the first one only uses Slow MAC, are given the same words and pages, in chronological order, and the
satellites fit in the storage.  They accept the same keys.  If the first reports data of a satellite, the second also does: that of the same time or a
later one; if it is not from words received later, then it is the same, with the same time and at least as many authentication bits. -/
theorem C85_slow_only_reports_less (hS : S.Consistent) (ho : (Osnma.new S root0 pk0 true : Osnma C).Fresh S)
    (ho' : (Osnma.new S root0 pk0 false : Osnma C).Fresh S) (h : Logs S (Osnma.new S root0 pk0 true) hist log o)
    (h' : Logs S (Osnma.new S root0 pk0 false) hist log' o') (hpages : (pagesOf hist).Pairwise (fun a b => a.sub.abs ≤ b.sub.abs))
    (hwords : Chronological (inavsOf hist)) (hfits : Fits S (inavsOf hist)) {kd : NavKind} {v : Svn} {d : NavMessageData}
    (hd : o.get S kd v = .ok (some d)) {res' : Option NavMessageData} (hd' : o'.get S kd v = .ok res') :
    log' = log ∧ ∃ d', res' = some d' ∧ d.gst.abs ≤ d'.gst.abs ∧
      ∃ q q', q <+: q' ∧ q' <+: inavsOf hist ∧ d.data = kd.expected q v ∧ d'.data = kd.expected q' v ∧
        (q = q' → d'.gst = d.gst ∧ d.authbits ≤ d'.authbits) :=
  more_reports hS hS ⟨Nat.le_refl _, Nat.le_refl _, Nat.le_refl _⟩ (fun _ => rfl) ho ho' h h' hpages hwords hfits hd hd'

/-- **C85, with what is needed to return.**  If moreover the parameters of the chains signed so far fit together and the times are not at the very
beginning of GST (see C38, C39), then if the receiver that only uses Slow MAC returns, so does the other one. -/
theorem C85_normal_receiver (hS : S.Consistent) (ho : (Osnma.new S root0 pk0 true : Osnma C).Fresh S)
    (ho' : (Osnma.new S root0 pk0 false : Osnma C).Fresh S) (h : Logs S (Osnma.new S root0 pk0 true) hist log o)
    (hpages : (pagesOf hist).Pairwise (fun a b => a.sub.abs ≤ b.sub.abs)) (hwords : Chronological (inavsOf hist)) (hfits : Fits S (inavsOf hist))
    (hs : SensibleLog log) (hg : ∀ p ∈ pagesOf hist, 360 ≤ p.sub.abs) (hweek : ∀ c ∈ inavsOf hist, 7650 ≤ c.gst.abs) :
    ∃ o', Logs S (Osnma.new S root0 pk0 false) hist log o' ∧
      ∀ kd v d, o.get S kd v = .ok (some d) → ∃ d', o'.get S kd v = .ok (some d') ∧ d.gst.abs ≤ d'.gst.abs ∧
        ∃ q q', q <+: q' ∧ q' <+: inavsOf hist ∧ d.data = kd.expected q v ∧ d'.data = kd.expected q' v ∧
          (q = q' → d'.gst = d.gst ∧ d.authbits ≤ d'.authbits) := by
  obtain ⟨o', h', _⟩ := Osnma.same_panics hS hS ho ho' h hs hg rfl
  refine ⟨o', h', fun kd v d hd => ?_⟩
  obtain ⟨res', r⟩ := C38_get_returns hS ho' h'.run hweek kd v
  obtain ⟨_, d', rfl, hx⟩ := C85_slow_only_reports_less hS ho ho' h h' hpages hwords hfits hd r
  exact ⟨d', r, hx⟩

end Verif
