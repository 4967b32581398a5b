import Verif.Lemmas.CaughtMachine
import Verif.Props.Caught

/-! # C96: a reference machine for the acceptance of keys when panics are caught -/

namespace Verif
open CollectSubframe CollectDsm

variable {S S' : Storage} {C : Crypto} {root0 : Option MerkleTreeNode} {pk0 : Option (PublicKey C)} {slow slow' : Bool}
  {hist hist' : List Call} {log log' : List (KeyEvent C)} {o o' : Osnma C}

/-- **C96.**  For every history in which panics are caught, the acceptance messages are those of the reference machine for the subframes completed by
the pages. -/
theorem C96_reference_machine (h : Caught S (Osnma.new S root0 pk0 slow) hist log o) :
    ∃ rs, ReceivedIn (pagesOf hist) rs ∧ CaughtMachine root0 pk0 rs log := by
  obtain ⟨rs, M⟩ := caughtMachine_run h
  exact ⟨rs, M.received, M.machine⟩

/-- The subframes and the trust anchors determine the messages. -/
theorem C96_machine_deterministic {rs : List Received} (h : CaughtMachine root0 pk0 rs log) (h' : CaughtMachine root0 pk0 rs log') :
    log = log' := by
  induction h generalizing log' with
  | nil =>
    generalize hrs : ([] : List Received) = rs at h'
    cases h' with
    | nil => rfl
    | step r => simp at hrs
    | pass r => simp at hrs
  | @step rs lo l₁ l₂ r h hok h₁ h₂ ih =>
    generalize hrs : rs ++ [r] = rs' at h'
    cases h' with
    | nil => simp at hrs
    | @step rs2 lo2 m₁ m₂ r2 k hok' k₁ k₂ =>
      obtain ⟨rfl, rfl⟩ := append_singleton_cancel hrs
      obtain rfl := ih k
      obtain rfl := h₁.unique (fun a b ⟨da, ha, ha'⟩ ⟨db, hb, hb'⟩ => by
        rw [ha.unique hb] at ha'; exact ha'.unique hb') k₁
      obtain rfl := h₂.unique (fun a b ⟨ka, ea, ha⟩ ⟨kb, eb, hb⟩ => by rw [ea, eb, ha.unique hb]) k₂
      rfl
    | @pass rs2 lo2 r2 data k hc hn =>
      obtain ⟨rfl, rfl⟩ := append_singleton_cancel hrs
      obtain rfl := ih k
      exact absurd (hok data hc) hn
  | @pass rs lo r data h hc hn ih =>
    generalize hrs : rs ++ [r] = rs' at h'
    cases h' with
    | nil => simp at hrs
    | @step rs2 lo2 m₁ m₂ r2 k hok' k₁ k₂ =>
      obtain ⟨rfl, rfl⟩ := append_singleton_cancel hrs
      obtain rfl := ih k
      exact absurd (hok' data hc) hn
    | @pass rs2 lo2 r2 data' k hc' hn' =>
      obtain ⟨rfl, rfl⟩ := append_singleton_cancel hrs
      exact ih k

/-- What is accepted does not depend on the size of the storage, on the Slow MAC setting or on the navigation words, with caught panics either. -/
theorem C96_settings_irrelevant (h : Caught S (Osnma.new S root0 pk0 slow) hist log o)
    (h' : Caught S' (Osnma.new S' root0 pk0 slow') hist' log' o') (hp : pagesOf hist = pagesOf hist') :
    log = log' ∧ o.data.data.key.key0 = o'.data.data.key.key0 ∧ o.data.data.key.key1 = o'.data.data.key.key1 ∧
      o.data.data.pubkey.current = o'.data.data.pubkey.current ∧ o.data.data.pubkey.next = o'.data.data.pubkey.next := by
  obtain ⟨rs, M⟩ := caughtMachine_run h
  obtain ⟨rs', M'⟩ := caughtMachine_run h'
  have h1 := M.received
  rw [hp] at h1
  obtain rfl := h1.unique M'.received
  obtain rfl := C96_machine_deterministic M.machine M'.machine
  have e1 := M.state.held.trans M'.state.held.symm
  have e2 := M.state.keys.trans M'.state.keys.symm
  simp only [Prod.mk.injEq] at e1 e2
  exact ⟨rfl, e1.1, e1.2, e2.1, e2.2⟩

/-- What one more subframe does: if it completes a DSM that is not harmless, nothing is accepted; otherwise exactly the message of the DSM, then the TESLA key of the
subframe, as without panics before. -/
theorem C96_effect_of_a_subframe (h : Caught S (Osnma.new S root0 pk0 slow) hist log o) {rs : List Received} (hr : ReceivedIn (pagesOf hist) rs)
    {data : OsnmaDataMessage} {svn : Svn} {gst : Gst} {r : Received} (hz : data.val.all (fun x => x == 0#8) = false)
    (hc : CompletesSubframe (pagesOf hist) ⟨data, svn, gst⟩ r)
    (h' : Caught S (Osnma.new S root0 pk0 slow) (hist ++ [.osnma data svn gst]) log' o') :
    (log' = log ∧ ∃ dsm, CompletesDsmWith (rs.map Received.dsmCall) r.dsmCall dsm ∧ ¬ Harmless root0 pk0 log r dsm) ∨
    ((∀ dsm, CompletesDsmWith (rs.map Received.dsmCall) r.dsmCall dsm → Harmless root0 pk0 log r dsm) ∧ ∃ l₁ l₂, log' = log ++ l₁ ++ l₂ ∧
      Exactly (fun e => ∃ dsm, CompletesDsmWith (rs.map Received.dsmCall) r.dsmCall dsm ∧ DsmMessage root0 pk0 log r dsm e) l₁ ∧
      Exactly (fun e => ∃ k, e = .tesla k ∧ TeslaMessage (log ++ l₁) r k) l₂) := by
  obtain ⟨rs1, a1, a2⟩ := C96_reference_machine h
  obtain rfl := a1.unique hr
  obtain ⟨rs2, b1, b2⟩ := C96_reference_machine h'
  rw [pagesOf_page hist svn gst hz] at b1
  obtain rfl := b1.unique (.got _ r a1 hc)
  generalize hrs : rs1 ++ [r] = rs' at b2
  cases b2 with
  | nil => simp at hrs
  | @step rs2 lo2 m₁ m₂ r2 k hok k₁ k₂ =>
    obtain ⟨rfl, rfl⟩ := append_singleton_cancel hrs
    obtain rfl := C96_machine_deterministic a2 k
    exact .inr ⟨hok, m₁, m₂, rfl, k₁, k₂⟩
  | @pass rs2 lo2 r2 dsm k hc hn =>
    obtain ⟨rfl, rfl⟩ := append_singleton_cancel hrs
    obtain rfl := C96_machine_deterministic a2 k
    exact .inl ⟨rfl, dsm, hc, hn⟩

/-- Without panics the machine is the one of C62. -/
theorem C96_without_panics (h : Logs S (Osnma.new S root0 pk0 slow) hist log o) {rs : List Received} (hr : ReceivedIn (pagesOf hist) rs) :
    CaughtMachine root0 pk0 rs log ∧ KeyMachine root0 pk0 rs log := by
  obtain ⟨rs1, a1, a2⟩ := C96_reference_machine (C89_without_panics h)
  obtain ⟨rs2, b1, b2⟩ := C62_reference_machine h
  obtain rfl := a1.unique hr
  obtain rfl := b1.unique hr
  exact ⟨a2, b2⟩

/-! ## The history always goes on -/

theorem Exactly.exists (P : KeyEvent C → Prop) : ∃ l, Exactly P l := by
  by_cases h : ∃ e, P e
  · obtain ⟨e, he⟩ := h
    exact ⟨[e], .inl ⟨e, he, rfl⟩⟩
  · exact ⟨[], .inr ⟨rfl, fun e he => h ⟨e, he⟩⟩⟩

/-- The machine goes on with every subframe. -/
theorem C96_machine_total {rs : List Received} (h : CaughtMachine root0 pk0 rs log) (r : Received) :
    ∃ l, CaughtMachine root0 pk0 (rs ++ [r]) (log ++ l) := by
  by_cases hok : ∀ data, CompletesDsmWith (rs.map Received.dsmCall) r.dsmCall data → Harmless root0 pk0 log r data
  · obtain ⟨l₁, h₁⟩ := Exactly.exists (fun e => ∃ data, CompletesDsmWith (rs.map Received.dsmCall) r.dsmCall data ∧ DsmMessage root0 pk0 log r data e)
    obtain ⟨l₂, h₂⟩ := Exactly.exists (C := C) (fun e => ∃ k, e = .tesla k ∧ TeslaMessage (log ++ l₁) r k)
    exact ⟨l₁ ++ l₂, by rw [← List.append_assoc]; exact .step r h hok h₁ h₂⟩
  · obtain ⟨data, hd⟩ := Classical.not_forall.1 hok
    obtain ⟨hc, hn⟩ := Classical.not_imp.1 hd
    exact ⟨[], by rw [List.append_nil]; exact .pass r data h hc hn⟩

theorem received_goes_on {ps : List Page} {rs : List Received} (h : ReceivedIn ps rs) (p : Page) :
    ReceivedIn (ps ++ [p]) rs ∨ ∃ r, ReceivedIn (ps ++ [p]) (rs ++ [r]) := by
  by_cases hr : ∃ r, CompletesSubframe ps p r
  · obtain ⟨r, hr⟩ := hr
    exact .inr ⟨r, .got p r h hr⟩
  · exact .inl (.skip p h (fun r k => hr ⟨r, k⟩))

theorem SensiblePages.pre {ps : List Page} {p : Page} (h : SensiblePages root0 pk0 (ps ++ [p])) : SensiblePages root0 pk0 ps := by
  intro rs log hr hm
  rcases received_goes_on hr p with hr' | ⟨r, hr'⟩
  · exact h _ _ hr' hm
  · obtain ⟨l, hm'⟩ := C96_machine_total hm r
    exact (h _ _ hr' hm').mono (fun e he => List.mem_append_left _ he)

/-- A call after a history with caught panics returns or panics while processing a DSM. -/
theorem caught_next (hS : S.Consistent) (hK : CaughtInv S root0 pk0 slow hist log o) {rs : List Received}
    (M : MachineState root0 pk0 hist log o rs) (c : Call)
    (hg : ∀ p ∈ pagesOf (hist ++ [c]), 360 ≤ p.sub.abs) (hs : SensiblePages root0 pk0 (pagesOf (hist ++ [c]))) :
    (∃ o', c.run S o = .ok o') ∨ ((c.run S o).Panics ∧ ∃ o', o.left S c = some o') := by
  cases c with
  | inav word svn gst band =>
    obtain ⟨L, hL⟩ := hK.nav
    obtain ⟨n, hn, _⟩ := CollectNavMessage.feed_rep hS hL.rep ⟨word, svn, gst, band⟩
    exact .inl ⟨{ o with data := { o.data with data := { o.data.data with navmessage := n } } }, by
      show o.feedInav S word svn gst band = _
      unfold Osnma.feedInav; rw [hn]; rfl⟩
  | osnma data svn gst =>
    by_cases hz : data.val.all (fun x => x == 0#8) = true
    · exact .inl ⟨o, by show o.feedOsnma S data svn gst = _; unfold Osnma.feedOsnma; rw [if_pos hz]; rfl⟩
    have hz' : data.val.all (fun x => x == 0#8) = false := by simpa using hz
    rw [pagesOf_page hist svn gst hz'] at hg hs
    have hga : 360 ≤ gst.subframe.abs := hg ⟨data, svn, gst⟩ (by simp)
    obtain ⟨outs, h1⟩ := M.pages
    obtain ⟨douts, h3⟩ := M.blocks
    have K := M.state
    cases hf : o.subframe.feed data svn gst with
    | panic w =>
      exfalso
      obtain ⟨s1, outs1, e1, e2, e3, _⟩ := feedPages_spec wf_new (pagesOf hist) (fun _ => Sat.init) rep_new
      rw [h1] at e1; cases e1
      obtain ⟨s2, out2, e4, _⟩ := feed_emit e2 ⟨data, svn, gst⟩ (fun v => satAfter v (pagesOf hist)) e3
      rw [hf] at e4; cases e4
    | ok res =>
      obtain ⟨sf, out⟩ := res
      cases out with
      | none => exact .inl ⟨{ o with subframe := sf }, by show o.feedOsnma S data svn gst = _; unfold Osnma.feedOsnma; rw [if_neg hz, hf]; rfl⟩
      | some res =>
        obtain ⟨hk, m, g⟩ := res
        obtain ⟨hgs, _⟩ := C04_collected_subframe (pagesOf hist) ⟨data, svn, gst⟩ _ _ outs hk m g h1 hf
        change g = gst.subframe at hgs
        subst hgs
        obtain ⟨b0, b1, block, ms, dsm, out, c⟩ := subframeDone_of hS hK.pages hK.blocks hk m svn gst
        have hal : gst.subframe.Aligned := Gst.subframe_aligned gst
        have hrun : o.feedOsnma S data svn gst =
            (o.data.processSubframe S hk m svn gst.subframe).bind fun d => .ok ⟨sf, d⟩ := by
          unfold Osnma.feedOsnma
          rw [if_neg hz, hf]
          rfl
        obtain ⟨L, hrep⟩ := c.rep
        let r : Received := ⟨svn, hk, m, gst.subframe⟩
        have hb0 : hk.val[0]? = some b0 := by rw [c.hk_eq]; rfl
        have hb1 : hk.val[1]? = some b1 := by rw [c.hk_eq]; rfl
        have hbl : block.val = hk.val.drop 2 := by rw [c.hk_eq]; rfl
        have hr : CompletesSubframe (pagesOf hist) ⟨data, svn, gst⟩ r := (feed_completes (p := ⟨data, svn, gst⟩) h1 hf r).2 ⟨rfl, rfl⟩
        have hdsm : o.data.dsm.feed r.dsmCall.header r.dsmCall.block = .ok (dsm, out) := by
          rw [dsmCall_of hb1 hbl]; exact c.feed
        have hhead : r.header = ⟨b0⟩ := header_of hb0
        cases out with
        | none =>
          obtain ⟨d', hd'⟩ := OsnmaData.validateKey_returns (S := S) (m := m) (g := gst.subframe)
            (d := { o.data.data with mack := ms }) K.inv (hs.pre _ _ M.received M.machine) hrep hal hga hK.inv
          refine .inl ⟨⟨sf, dsm, d'⟩, ?_⟩
          show o.feedOsnma S data svn gst = _
          rw [hrun, c.process]
          simp only [Res.bind]
          rw [hd']
        | some x =>
          obtain ⟨ht, hcomp⟩ := (feed_dsm h3 hdsm).1 x rfl
          cases hpd : ({ o.data.data with mack := ms } : OsnmaData C).processDsm x ⟨b0⟩ gst.subframe with
          | panic w =>
            refine .inr ⟨⟨w, ?_⟩, ⟨sf, dsm, { o.data.data with mack := ms }⟩, ?_⟩
            · show o.feedOsnma S data svn gst = _
              rw [hrun, c.process]
              dsimp only
              rw [hpd]
              rfl
            · unfold Osnma.left
              dsimp only
              rw [if_neg hz, hf]
              dsimp only
              rw [index_eq_ok.2 hb0]
              simp only [Res.ok_bind]
              rw [c.store]
              simp only [Res.ok_bind]
              rw [index_eq_ok.2 hb1]
              simp only [Res.ok_bind]
              have ib : CollectSubframe.toBytes 13 (hk.val.drop 2) = .ok block := by
                unfold CollectSubframe.toBytes
                rw [dif_pos (by rw [← hbl]; exact block.property)]
                exact congrArg Res.ok (Subtype.ext hbl.symm)
              rw [ib]
              simp only [Res.ok_bind]
              rw [c.feed]
              simp only [Res.ok_bind, Res.pure_eq]
              rw [hpd]
          | ok d =>
            have hst := OsnmaData.processDsm_step hpd
            obtain ⟨en, em, _⟩ := OsnmaData.processDsm_nav hpd
            have hinv' := KeyInv.dsm (log := log) (d := { o.data.data with mack := ms }) (by exact K.inv) hst
            have hpd' := hpd
            rw [← hhead] at hpd'
            have hex := K.dsmEvents (r := r) ht hpd'
            obtain ⟨l₂, h₂⟩ := Exactly.exists (C := C) (fun e => ∃ k, e = .tesla k ∧
              TeslaMessage (log ++ ({ o.data.data with mack := ms } : OsnmaData C).dsmEvents x r.header r.gst) r k)
            have hm : CaughtMachine root0 pk0 (rs ++ [r]) (log ++ ({ o.data.data with mack := ms } : OsnmaData C).dsmEvents x r.header r.gst ++ l₂) := by
              refine .step r M.machine ?_ (hex.congr ?_) h₂
              · intro data' hdata
                rw [hdata.unique hcomp]
                exact (K.returns_iff (ms := ms) ht hcomp).1 ⟨_, hpd'⟩
              · intro e
                constructor
                · intro h; exact ⟨_, hcomp, h⟩
                · rintro ⟨data, h5, h6⟩
                  rw [hcomp.unique h5]; exact h6
            have hsl := hs _ _ (.got _ _ M.received hr) hm
            rw [hhead] at hsl
            obtain ⟨d', hd'⟩ := OsnmaData.validateKey_returns (S := S) (m := m) (g := gst.subframe) (d := d) hinv'
              (hsl.mono (fun e he => List.mem_append_left _ he)) (by rw [em]; exact hrep) hal hga (by rw [en]; exact hK.inv)
            refine .inl ⟨⟨sf, dsm, d'⟩, ?_⟩
            show o.feedOsnma S data svn gst = _
            rw [hrun, c.process]
            dsimp only
            rw [hpd]
            simp only [Res.bind]
            rw [hd']

/-- **C96.**  Nothing received stops a program that catches the panics: for every history of calls from 6 minutes after the origin of GST on whose chains are
sensible, every call returns or panics while processing a DSM. -/
theorem C96_always_goes_on (hS : S.Consistent) (h0 : (Osnma.new S root0 pk0 slow : Osnma C).Fresh S)
    (hg : ∀ p ∈ pagesOf hist, 360 ≤ p.sub.abs) (hs : SensiblePages root0 pk0 (pagesOf hist)) :
    ∃ log o, Caught S (Osnma.new S root0 pk0 slow : Osnma C) hist log o := by
  induction hist using snoc_induction with
  | h0 => exact ⟨[], _, .nil⟩
  | h1 hist c ih =>
    have hsub : ∀ p ∈ pagesOf hist, p ∈ pagesOf (hist ++ [c]) := by
      intro p hp; rw [pagesOf_snoc]; exact List.mem_append_left _ hp
    have hs' : SensiblePages root0 pk0 (pagesOf hist) := by
      cases c with
      | inav w s g b => rw [pagesOf_inav] at hs; exact hs
      | osnma d s g =>
        cases hz : d.val.all (fun x => x == 0#8) with
        | true => rw [pagesOf_zero hist s g hz] at hs; exact hs
        | false => rw [pagesOf_page hist s g hz] at hs; exact hs.pre
    obtain ⟨log, o, h⟩ := ih (fun p hp => hg p (hsub p hp)) hs'
    obtain ⟨rs, M⟩ := caughtMachine_run h
    rcases caught_next hS (h.kept hS h0) M c hg hs with ⟨o', ho'⟩ | ⟨hp, o', ho'⟩
    · exact ⟨_, o', .returns c h ho'⟩
    · exact ⟨_, o', .panics c h hp ho'⟩

/-- The calls determine the outcome. -/
theorem C96_caught_deterministic {o0 : Osnma C} (h : Caught S o0 hist log o) (h' : Caught S o0 hist log' o') : log = log' ∧ o = o' := by
  induction h generalizing log' o' with
  | nil =>
    generalize hh : ([] : List Call) = hs at h'
    cases h' with
    | nil => exact ⟨rfl, rfl⟩
    | returns c => simp at hh
    | panics c => simp at hh
  | @returns hi lo oa ob c hl hc ih =>
    generalize hh : hi ++ [c] = hs at h'
    cases h' with
    | nil => simp at hh
    | returns c' hl' hc' =>
      obtain ⟨rfl, rfl⟩ := append_singleton_cancel hh
      obtain ⟨rfl, rfl⟩ := ih hl'
      rw [hc] at hc'; cases hc'
      exact ⟨rfl, rfl⟩
    | panics c' hl' hp' =>
      obtain ⟨rfl, rfl⟩ := append_singleton_cancel hh
      obtain ⟨rfl, rfl⟩ := ih hl'
      obtain ⟨w, hw⟩ := hp'
      rw [hc] at hw; cases hw
  | @panics hi lo oa ob c hl hp hleft ih =>
    generalize hh : hi ++ [c] = hs at h'
    cases h' with
    | nil => simp at hh
    | returns c' hl' hc' =>
      obtain ⟨rfl, rfl⟩ := append_singleton_cancel hh
      obtain ⟨rfl, rfl⟩ := ih hl'
      obtain ⟨w, hw⟩ := hp
      rw [hc'] at hw; cases hw
    | panics c' hl' hp' hleft' =>
      obtain ⟨rfl, rfl⟩ := append_singleton_cancel hh
      obtain ⟨rfl, rfl⟩ := ih hl'
      rw [hleft] at hleft'; cases hleft'
      exact ⟨rfl, rfl⟩

end Verif
