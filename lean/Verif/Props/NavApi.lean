import Verif.Lemmas.NavApi
import Verif.Props.Validated

/-! # C72: `CollectNavMessage` used directly -/

namespace Verif
open CollectNavMessage
open CollectSubframe (snoc_induction)

variable {S : Storage} {C : Crypto} {trusted : PublicKey C → Prop} {roots : MerkleTreeNode → Prop} {ops : List NavOp}
  {n : CollectNavMessage}

theorem getKind_some (hS : S.Consistent) (h : navCalls C S ops = .ok n) {kd : NavKind} {svn : Svn} {d : NavMessageData}
    (hd : n.getKind S kd svn = .ok (some d)) :
    ∃ x, x ∈ n.arr kd ∧ x.svn = some svn ∧ 40 ≤ x.authbits ∧ d.data = x.messageBits kd.nbits ∧ d.authbits = x.authbits := by
  obtain ⟨L, hL⟩ := apiInv_calls hS h
  rw [← boxOf_get (C := C)] at hd
  obtain ⟨g, x, hb, e1, e2, _⟩ := get_some hL hd
  obtain ⟨k, s, k1, _, k3, k4, k5, _⟩ := bestEntry_some hb
  exact ⟨x, (Rep.mem hL.rep (kd := kd)).2 (.inl ⟨s, List.mem_of_getElem? k1, k3⟩), k4, k5, e1, e2⟩

theorem tagUses_mem {msg : MackMessage} {c : Chain} {key : Key} {prna : Svn} {gst : Gst} {st : NmaStatus} {a : Nat} {u : TagUse}
    (h : u ∈ tagUses msg c key prna gst st a) : u.key = key ∧ u.tag.adkd = a ∧ u.tag ∈ mackTags msg c u.prna := by
  obtain ⟨t, ht, rfl⟩ := List.mem_map.1 h
  obtain ⟨h1, h2⟩ := List.mem_filter.1 ht
  exact ⟨rfl, by simpa using h2, h1⟩

theorem sinceReset_mem {op : NavOp} (h : op ∈ sinceReset ops) : op ∈ ops := by
  unfold sinceReset at h
  rw [List.mem_reverse] at h
  exact List.mem_reverse.1 ((List.takeWhile_sublist _).subset h)

/-- **C72.** A program that uses `CollectNavMessage` directly, with any calls in any order: if a getter returns
data, then tags submitted since the last `reset_authbits`, each used at most as often as it was submitted, of
total length the reported `authbits` (at least 40), vouch for these very bits of the satellite: they are not
dummy tags, were submitted with status test or operational, have the ADKD of this kind of data, and are the
truncated MACs of these bits under a key that is traced to a signed KROOT, and come from a MACK that conforms,
for some satellite and subframe, to the look-up table and has a right MACSEQ under such a key. -/
theorem C72_backed_by_tags (hS : S.Consistent) (hty : ∀ op ∈ ops, op.Typed C (ApiPk C trusted roots))
    (h : navCalls C S ops = .ok n) {kd : NavKind} {svn : Svn} {d : NavMessageData} (hd : n.getKind S kd svn = .ok (some d)) :
    ∃ us : List TagUse, us.Sublist (tagsSubmitted kd ops) ∧ 40 ≤ d.authbits ∧
      d.authbits = min 65535 (us.map (fun u => u.tag.tag.length)).sum ∧
      ∀ u ∈ us, u.Vouches C svn d.data ∧
        (match kd with
          | .ced => u.tag.adkd = 0 ∨ u.tag.adkd = 12
          | .timing => u.tag.adkd = 4) ∧
        (∃ kr, RootAnchored trusted roots kr ∧ Meets C kr u.key) ∧
        ∃ msg c k prna g, u.tag ∈ mackTags msg c u.prna ∧ MackConforms C k c msg prna g ∧ ∃ kr, RootAnchored trusted roots kr ∧ Meets C kr k := by
  obtain ⟨x, h1, h2, h3, h4, h5⟩ := getKind_some hS h hd
  obtain ⟨us, k1, k2, k3⟩ := (itemInv_calls hS h kd x h1).vouched
  refine ⟨us, k1, by omega, by rw [h5]; exact k2, ?_⟩
  intro u hu
  obtain ⟨v, hv, hp⟩ := k3 u hu
  rw [h2] at hv; cases hv
  rw [h4]
  refine ⟨hp, ?_⟩
  obtain ⟨op, ho, hu⟩ := List.mem_flatMap.1 (k1.subset hu)
  have ht := hty op (sinceReset_mem ho)
  have key : ∀ {msg c key prna gst st a}, u ∈ tagUses msg c key prna gst st a →
      ApiMack C (ApiPk C trusted roots) (.new msg c.keySizeBits c.tagSizeBits) ∧ ApiKey C (ApiPk C trusted roots) true key →
      (∃ kr, RootAnchored trusted roots kr ∧ Meets C kr u.key) ∧
        ∃ msg c k prna g, u.tag ∈ mackTags msg c u.prna ∧ MackConforms C k c msg prna g ∧ ∃ kr, RootAnchored trusted roots kr ∧ Meets C kr k := by
    intro msg c key prna gst st a hu ⟨hm, hk⟩
    obtain ⟨rfl, _, e3⟩ := tagUses_mem hu
    obtain ⟨k, p, g, m1, m2⟩ := C71_mack hm
    exact ⟨(C71_key_traced hk).2, msg, c, k, p, g, e3, m2, (C71_key_traced m1).2⟩
  cases op with
  | processMack msg c k prna gst st =>
    cases kd with
    | ced => exact ⟨.inl (tagUses_mem hu).2.1, key hu ht⟩
    | timing => exact ⟨(tagUses_mem hu).2.1, key hu ht⟩
  | processMackSlowmac msg c k prna gst st =>
    cases kd with
    | ced => exact ⟨.inr (tagUses_mem hu).2.1, key hu ht⟩
    | timing => cases hu
  | feed => cases hu
  | resetAuthbits => cases hu

/-- **C72.** Each field of the returned data was fed for this satellite (words 6 and 10 on E1B). -/
theorem C72_provenance (hS : S.Consistent) (h : navCalls C S ops = .ok n) {kd : NavKind} {svn : Svn} {d : NavMessageData}
    (hd : n.getKind S kd svn = .ok (some d)) (i : Nat) (f : NavField) (hf : kd.fields[i]? = some f) :
    ∃ c ∈ navFeeds ops, c.svn = svn ∧ kd.carries c f = true ∧ (d.data.drop (kd.off i)).take f.len = f.bits c := by
  obtain ⟨x, h1, h2, h3, h4, h5⟩ := getKind_some hS h hd
  obtain ⟨c, k1, k2, k3, k4⟩ := (itemInv_calls hS h kd x h1).prov.auth svn h2 (by omega) i f hf
  refine ⟨c, k1, k2, k3, ?_⟩
  rw [← k4, h4]
  have ho := kd.off_le hf
  unfold NavItem.seg NavItem.messageBits
  rw [List.drop_take, List.take_take]; congr 1; omega

/-- **C72.** After `reset_authbits` nothing is returned until new tags are submitted. -/
theorem C72_reset (hS : S.Consistent) {ops' : List NavOp} (h : navCalls C S (ops ++ .resetAuthbits :: ops') = .ok n) {kd : NavKind}
    (hno : ∀ op ∈ ops', op.tags kd = []) (svn : Svn) : n.getKind S kd svn = .ok none := by
  obtain ⟨L, hL⟩ := apiInv_calls hS h
  rw [← boxOf_get (C := C), get_eq hL, show bestEntry L kd svn = none from bestEntry_none.2 ?_]
  · rfl
  intro s hs y hy hys
  have hm : y ∈ n.arr kd := (Rep.mem hL.rep (kd := kd)).2 (.inl ⟨s, hs, hy⟩)
  obtain ⟨us, k1, k2, _⟩ := (itemInv_calls hS h kd y hm).vouched
  have : tagsSubmitted kd (ops ++ .resetAuthbits :: ops') = [] := by
    unfold tagsSubmitted
    rw [List.flatMap_eq_nil_iff]
    intro op ho
    by_cases hm : op ∈ ops'
    · exact hno op hm
    · exfalso
      clear h hL k1 hno
      revert ho
      induction ops' using snoc_induction with
      | h0 => rw [sinceReset_reset]; simp
      | h1 l a ih =>
        intro ho
        rw [show ops ++ .resetAuthbits :: (l ++ [a]) = (ops ++ .resetAuthbits :: l) ++ [a] by simp] at ho
        by_cases ha : a = .resetAuthbits
        · subst ha; rw [sinceReset_reset] at ho; cases ho
        · rw [sinceReset_snoc ha] at ho
          rcases List.mem_append.1 ho with ho | ho
          · exact ih (fun h => hm (by simp [h])) ho
          · exact hm (by simp at ho; simp [ho])
  rw [this] at k1
  rw [List.eq_nil_of_sublist_nil k1] at k2
  simp at k2
  omega

/-- **C72.** No call panics if MACKs are processed with times of the start of a subframe (other than the first
one of week 0), and with keys of a size that the MAC function allows. -/
theorem C72_returns (hS : S.Consistent) (hok : ∀ op ∈ ops, ∀ msg c key prna gst st,
      (op = .processMack msg c key prna gst st ∨ op = .processMackSlowmac msg c key prna gst st) →
      gst.Aligned ∧ 30 ≤ gst.abs ∧ key.MacUsable) : ∃ n, navCalls C S ops = .ok n := by
  induction ops using snoc_induction with
  | h0 => exact ⟨_, rfl⟩
  | h1 ops op ih =>
    obtain ⟨m, hm⟩ := ih (fun o ho => hok o (by simp [ho]))
    have hi := apiInv_calls hS hm
    suffices ∃ n, op.run C S m = .ok n by
      obtain ⟨n, hn⟩ := this
      refine ⟨n, ?_⟩
      unfold navCalls at hm ⊢
      rw [loopM_append, hm]
      show (op.run C S m >>= _) = _
      rw [hn]; rfl
    have time : ∀ {gst : Gst}, gst.Aligned → 30 ≤ gst.abs → ∃ gnav, gst.addSeconds (-30) = .ok gnav ∧ gnav.isSubframe = true := by
      intro gst h1 h2
      have hr := gst.abs_representable
      obtain ⟨t, ht⟩ := exists_gst (t := gst.abs - 30) (by unfold Representable at *; omega)
      refine ⟨t, (Gst.addSeconds_eq_ok (by omega)).2 ⟨by omega, by omega⟩, ?_⟩
      rw [Gst.isSubframe_iff]
      unfold Gst.Aligned Gst.abs at *
      omega
    cases op with
    | feed w s g b =>
      obtain ⟨L, hL⟩ := hi
      obtain ⟨n1, h1, _⟩ := feed_rep hS hL.rep ⟨w, s, g, b⟩
      exact ⟨n1, h1⟩
    | processMack msg c key prna gst st =>
      obtain ⟨h1, h2, h3⟩ := hok _ (by simp) msg c key prna gst st (.inl rfl)
      obtain ⟨gnav, h4, h5⟩ := time h1 h2
      exact ⟨_, processMack_eq (c := c) h3 h4 h5 hi.inv.lens hi.inv.okc hi.inv.okt⟩
    | processMackSlowmac msg c key prna gst st =>
      obtain ⟨h1, h2, h3⟩ := hok _ (by simp) msg c key prna gst st (.inr rfl)
      obtain ⟨gnav, h4, h5⟩ := time h1 h2
      exact ⟨_, processMackSlowmac_eq (c := c) h3 h4 h5 hi.inv.lens hi.inv.okc hi.inv.okt⟩
    | resetAuthbits => exact ⟨_, rfl⟩

/-- **C72.** The getters do not panic if all the words were fed with times at least 255 subframes after the
start of week 0. -/
theorem C72_get_returns (hS : S.Consistent) (h : navCalls C S ops = .ok n) (hweek : ∀ c ∈ navFeeds ops, 7650 ≤ c.gst.abs)
    (kd : NavKind) (svn : Svn) : ∃ r, n.getKind S kd svn = .ok r := by
  obtain ⟨L, hinv⟩ := apiInv_calls hS h
  rw [← boxOf_get (C := C), get_eq hinv]
  cases hb : bestEntry L kd svn with
  | none => exact ⟨_, rfl⟩
  | some p =>
    obtain ⟨g, x⟩ := p
    obtain ⟨k, s, k1, k2, k3, _⟩ := bestEntry_some hb
    obtain ⟨q, r, h1, h2, _⟩ := hinv.prefix k1
    obtain ⟨q', c, rfl, hg⟩ := navHead_gst h2
    rw [inavsOf_asCalls] at h1
    have hcw := hweek c (by rw [h1]; simp)
    have hga : g.abs = c.gst.subframe.abs := by
      rw [← k2]; exact congrArg Gst.abs hg
    rw [Gst.subframe_abs] at hga
    have hle := x.minAge_le_255
    have : ∃ t, g.addSubframes (-(x.minAge : Int)) = .ok t := by
      have hr := g.abs_representable
      obtain ⟨t, ht⟩ := exists_gst (t := g.abs - 30 * (x.minAge : Int)) (by unfold Representable at *; omega)
      exact ⟨t, Gst.addSubframes_eq_ok.2 (by omega)⟩
    obtain ⟨t, ht⟩ := this
    simp only [resultOf, ht]
    exact ⟨_, rfl⟩

/-! ## A concrete program -/

namespace Sim

/-- The program stores the words of one subframe, submits the MACK of the second one with the key of the third
one, and its Slow MAC tags with the key of eleven subframes later. -/
def apiProgram : List NavOp :=
  [1, 2, 3, 4, 5, 6, 10].map (fun ty => .feed (word ty 0x35) (sv 1) (gst 36030) .E1B) ++
  [.processMack apiMack (chain 1) (key (chain 1) 36090) (sv 1) (gst 36060) .Test,
   .processMackSlowmac apiMack (chain 1) (key (chain 1) 36390) (sv 1) (gst 36060) .Test]

/-- Summary of what the getters return. -/
def apiGot (ops : List NavOp) : Option (Option Nat × Option Nat) :=
  match Verif.navCalls toy Sim.S ops with
  | .ok n =>
    match n.getKind Sim.S .ced (sv 1), n.getKind Sim.S .timing (sv 1) with
    | .ok a, .ok b => some (a.map (·.authbits), b.map (·.authbits))
    | _, _ => none
  | .panic _ => none

/-- Tag 0 and the Slow MAC tag count for the CED, the ADKD 4 tag for the timing parameters. -/
theorem apiProgram_got : apiGot apiProgram = some (some 80, some 40) := by decide +kernel

/-- After `reset_authbits` nothing is returned. -/
theorem apiReset_got : apiGot (apiProgram ++ [.resetAuthbits]) = some (none, none) := by decide +kernel

end Sim

/-- The program above meets the hypotheses of the theorems of C72 and gets data. -/
example : (∀ op ∈ Sim.apiProgram, op.Typed Sim.toy (ApiPk Sim.toy (fun pk => pk = Sim.pub 1) (fun _ => False))) ∧
    ∃ n d, navCalls Sim.toy Sim.S Sim.apiProgram = .ok n ∧ n.getKind Sim.S .ced (Sim.sv 1) = .ok (some d) ∧ d.authbits = 80 := by
  have hm : ApiMack Sim.toy (ApiPk Sim.toy (fun pk => pk = Sim.pub 1) (fun _ => False))
      (.new Sim.apiMack (Sim.chain 1).keySizeBits (Sim.chain 1).tagSizeBits) := .validate Sim.apiKey1 Sim.apiMack_ok
  refine ⟨?_, ?_⟩
  · intro op ho
    unfold Sim.apiProgram at ho
    rcases List.mem_append.1 ho with ho | ho
    · obtain ⟨_, _, rfl⟩ := List.mem_map.1 ho
      trivial
    · simp only [List.mem_cons, List.not_mem_nil, or_false] at ho
      rcases ho with rfl | rfl
      · exact ⟨hm, Sim.apiKey1⟩
      · exact ⟨hm, Sim.apiKey2⟩
  · have h := Sim.apiProgram_got
    unfold Sim.apiGot at h
    split at h
    · rename_i n hn
      split at h
      · rename_i a b ha hb
        simp only [Option.some.injEq, Prod.mk.injEq] at h
        obtain ⟨d, hd, hv⟩ := Option.map_eq_some_iff.1 h.1
        exact ⟨n, d, hn, by rw [ha, hd], hv⟩
      · cases h
    · cases h

end Verif
