import Verif.Lemmas.KeyMachine
import Verif.Lemmas.NavFrames
import Verif.Lemmas.PlacesKept
import Verif.Spec.NavMachine
import Verif.Spec.Interleaving

/-! # Lemmas: interleavings -/

namespace Verif
variable {C : Crypto} {S : Storage} {root0 : Option MerkleTreeNode} {pk0 : Option (PublicKey C)} {slow : Bool}

/-! ## Words -/

/-- The same words, and those of each satellite with a field in the same order. -/
structure SameWords (p q : List InavCall) : Prop where
  all : ∀ c, c ∈ p ↔ c ∈ q
  order : ∀ (kd : NavKind) (v : Svn) (f : NavField), p.filter (fun c => c.svn == v && kd.carries c f) = q.filter (fun c => c.svn == v && kd.carries c f)

theorem SameWords.refl (p : List InavCall) : SameWords p p := ⟨fun _ => .rfl, fun _ _ _ => rfl⟩

theorem SameWords.symm {p q : List InavCall} (h : SameWords p q) : SameWords q p :=
  ⟨fun c => (h.all c).symm, fun kd v f => (h.order kd v f).symm⟩

theorem SameWords.trans {p q r : List InavCall} (h : SameWords p q) (h' : SameWords q r) : SameWords p r :=
  ⟨fun c => (h.all c).trans (h'.all c), fun kd v f => (h.order kd v f).trans (h'.order kd v f)⟩

theorem SameWords.mem {p q : List InavCall} (h : SameWords p q) {c : InavCall} : c ∈ p ↔ c ∈ q := h.all c

theorem SameWords.snoc {p q : List InavCall} (h : SameWords p q) (c : InavCall) : SameWords (p ++ [c]) (q ++ [c]) := by
  refine ⟨fun d => ?_, fun kd v f => ?_⟩
  · rw [List.mem_append, List.mem_append, h.all d]
  · rw [List.filter_append, List.filter_append, h.order kd v f]

theorem SameWords.swap (p : List InavCall) {c c' : InavCall} (h : c.svn ≠ c'.svn ∨ c.type ≠ c'.type) :
    SameWords (p ++ [c] ++ [c']) (p ++ [c'] ++ [c]) := by
  refine ⟨fun d => ?_, fun kd v f => ?_⟩
  · simp only [List.mem_append, List.mem_singleton]; grind
  · simp only [List.filter_append, List.append_assoc]
    congr 1
    by_cases h1 : (c.svn == v && kd.carries c f) = true
    · by_cases h2 : (c'.svn == v && kd.carries c' f) = true
      · exfalso
        unfold NavKind.carries at h1 h2
        simp only [Bool.and_eq_true, beq_iff_eq] at h1 h2
        rcases h with h | h
        · exact h (h1.1.trans h2.1.symm)
        · exact h (h1.2.1.trans h2.2.1.symm)
      · simp [h1, h2]
    · simp [List.filter_cons, h1]

theorem NavKind.latest_same (kd : NavKind) {p q : List InavCall} (h : SameWords p q) (v : Svn) (f : NavField) :
    kd.latest p v f = kd.latest q v f := by
  unfold NavKind.latest
  rw [h.order kd v f]

/-! ### Fields -/

theorem NavKind.field_size {kd : NavKind} {f : NavField} (hf : f ∈ kd.fields) : f.lo ≤ f.hi ∧ f.hi ≤ 128 := by
  revert hf
  cases kd <;> simp only [NavKind.fields, List.mem_cons, List.not_mem_nil, or_false] <;> grind

theorem NavKind.field_length {kd : NavKind} {f : NavField} (hf : f ∈ kd.fields) (p : List InavCall) (v : Svn) : (kd.fieldAfter p v f).length = f.len := by
  obtain ⟨h1, h2⟩ := NavKind.field_size hf
  unfold NavKind.fieldAfter
  split
  · rename_i c _
    unfold NavField.bits NavField.len
    have : (bitsOf c.word.val).length = 128 := by rw [bitsOf_length, c.word.property]
    rw [List.length_take, List.length_drop, this]
    omega
  · rw [List.length_replicate]

theorem flatMap_fields_inj {α β : Type} {g h : α → List β} : ∀ {l : List α}, (∀ x ∈ l, (g x).length = (h x).length) → l.flatMap g = l.flatMap h → ∀ x ∈ l, g x = h x
  | [], _, _, x, hx => by cases hx
  | a :: l, hl, he, x, hx => by
    rw [List.flatMap_cons, List.flatMap_cons] at he
    obtain ⟨h1, h2⟩ := List.append_inj he (hl a (by simp))
    rcases List.mem_cons.1 hx with rfl | hx
    · exact h1
    · exact flatMap_fields_inj (fun y hy => hl y (by simp [hy])) h2 x hx

/-- The data is the same if and only if all its fields are. -/
theorem NavKind.expected_iff (kd : NavKind) (p q : List InavCall) (v : Svn) :
    kd.expected p v = kd.expected q v ↔ ∀ f ∈ kd.fields, kd.fieldAfter p v f = kd.fieldAfter q v f := by
  constructor
  · intro h
    exact flatMap_fields_inj (fun f hf => (NavKind.field_length hf p v).trans (NavKind.field_length hf q v).symm) h
  · intro h
    unfold NavKind.expected
    rw [List.flatMap_def, List.flatMap_def]
    exact congrArg List.flatten (List.map_congr_left h)

theorem NavKind.fieldAfter_other {kd : NavKind} {p : List InavCall} {c : InavCall} {v : Svn} {f : NavField} (h : c.type ≠ f.ty) :
    kd.fieldAfter (p ++ [c]) v f = kd.fieldAfter p v f := by
  unfold NavKind.fieldAfter NavKind.latest
  have : (c.svn == v && kd.carries c f) = false := by
    unfold NavKind.carries
    have : (c.type == f.ty) = false := by simpa using h
    rw [this]; simp
  rw [List.filter_append, List.filter_cons, this]
  simp

theorem NavKind.expected_same (kd : NavKind) {p q : List InavCall} (h : SameWords p q) (v : Svn) : kd.expected p v = kd.expected q v := by
  unfold NavKind.expected
  congr 1
  funext f
  unfold NavKind.fieldAfter
  rw [kd.latest_same h v f]

theorem eraseDups_length_same {α : Type} [BEq α] [LawfulBEq α] {l l' : List α} (h : ∀ x, x ∈ l ↔ x ∈ l') : l.eraseDups.length = l'.eraseDups.length := by
  have : l.eraseDups.Perm l'.eraseDups := by
    rw [List.perm_ext_iff_of_nodup (nodup_eraseDups _ l (Nat.le_refl _)) (nodup_eraseDups _ l' (Nat.le_refl _))]
    intro a
    rw [List.mem_eraseDups, List.mem_eraseDups]
    exact h a
  exact this.length_eq

theorem laterSubframes_same {p q : List InavCall} (h : SameWords p q) (g : Gst) : laterSubframes p g = laterSubframes q g := by
  unfold laterSubframes
  apply eraseDups_length_same
  intro x
  simp only [List.mem_filter, List.mem_map]
  constructor
  · rintro ⟨⟨c, h1, h2⟩, h3⟩; exact ⟨⟨c, h.mem.1 h1, h2⟩, h3⟩
  · rintro ⟨⟨c, h1, h2⟩, h3⟩; exact ⟨⟨c, h.mem.2 h1, h2⟩, h3⟩

theorem NavKind.fieldAge_same (kd : NavKind) {p q : List InavCall} (h : SameWords p q) (v : Svn) (f : NavField) :
    kd.fieldAge p v f = kd.fieldAge q v f := by
  unfold NavKind.fieldAge
  rw [kd.latest_same h v f]
  split
  · rw [laterSubframes_same h]
  · rfl

theorem NavKind.ages_same (kd : NavKind) {p q : List InavCall} (h : SameWords p q) (v : Svn) :
    kd.oldestAge p v = kd.oldestAge q v ∧ kd.newestAge p v = kd.newestAge q v := by
  unfold NavKind.oldestAge NavKind.newestAge
  have : kd.fieldAge p v = kd.fieldAge q v := by funext f; exact kd.fieldAge_same h v f
  rw [this]
  exact ⟨rfl, rfl⟩

/-! ## Frames -/

/-- Frames with the same words for each satellite. -/
structure SameFrame (f f' : NavFrame) : Prop where
  gst : f.gst = f'.gst
  words : SameWords f.words f'.words
  auth : f.auth = f'.auth

theorem SameFrame.refl (f : NavFrame) : SameFrame f f := ⟨rfl, .refl _, rfl⟩

theorem SameFrame.has {f f' : NavFrame} (h : SameFrame f f') (v : Svn) : f.Has v ↔ f'.Has v := by
  unfold NavFrame.Has
  constructor
  · rintro ⟨c, h1, h2⟩; exact ⟨c, h.words.mem.1 h1, h2⟩
  · rintro ⟨c, h1, h2⟩; exact ⟨c, h.words.mem.2 h1, h2⟩

theorem SameFrame.data {f f' : NavFrame} (h : SameFrame f f') (kd : NavKind) (v : Svn) : f.data kd v = f'.data kd v :=
  kd.expected_same h.words v

/-- Lists of frames with the same words. -/
inductive SameFrames : List NavFrame → List NavFrame → Prop
  | nil : SameFrames [] []
  | cons {f f' : NavFrame} {fs fs' : List NavFrame} (h : SameFrame f f') (hs : SameFrames fs fs') : SameFrames (f :: fs) (f' :: fs')

theorem SameFrames.refl : ∀ fs, SameFrames fs fs
  | [] => .nil
  | f :: fs => .cons (.refl f) (SameFrames.refl fs)

theorem SameFrame.trans {a b c : NavFrame} (h : SameFrame a b) (h' : SameFrame b c) : SameFrame a c :=
  ⟨h.gst.trans h'.gst, h.words.trans h'.words, h.auth.trans h'.auth⟩

theorem SameFrames.trans {a b c : List NavFrame} (h : SameFrames a b) (h' : SameFrames b c) : SameFrames a c := by
  induction h generalizing c with
  | nil => exact h'
  | cons h hs ih => cases h' with | cons k ks => exact .cons (h.trans k) (ih ks)

theorem SameFrames.take {fs fs' : List NavFrame} (h : SameFrames fs fs') : ∀ n, SameFrames (fs.take n) (fs'.take n) := by
  induction h with
  | nil => intro n; simp; exact .nil
  | cons h hs ih =>
    intro n
    cases n with
    | zero => exact .nil
    | succ n => exact .cons h (ih n)

theorem SameFrames.mem {fs fs' : List NavFrame} (h : SameFrames fs fs') {f : NavFrame} (hf : f ∈ fs) : ∃ f' ∈ fs', SameFrame f f' := by
  induction h with
  | nil => cases hf
  | cons h hs ih =>
    rcases List.mem_cons.1 hf with rfl | hf
    · exact ⟨_, by simp, h⟩
    · obtain ⟨f', h1, h2⟩ := ih hf; exact ⟨f', by simp [h1], h2⟩

theorem SameFrame.symm {a b : NavFrame} (h : SameFrame a b) : SameFrame b a := ⟨h.gst.symm, h.words.symm, h.auth.symm⟩

theorem SameFrames.symm {a b : List NavFrame} (h : SameFrames a b) : SameFrames b a := by
  induction h with
  | nil => exact .nil
  | cons h _ ih => exact .cons h.symm ih

theorem SameFrames.word {fs fs' : List NavFrame} (h : SameFrames fs fs') (depth : Nat) (c : InavCall) :
    SameFrames (wordReceived depth c fs) (wordReceived depth c fs') := by
  cases h with
  | nil => exact .refl _
  | @cons f f' fs fs' h hs =>
    unfold wordReceived
    dsimp only
    rw [h.gst]
    refine .cons ⟨rfl, h.words.snoc c, ?_⟩ ?_
    · funext kd v
      dsimp only
      rw [kd.expected_same (h.words.snoc c) v, h.data kd v, h.auth]
    · split
      · exact hs
      · exact (SameFrames.cons h hs).take _

/-- Neither word changes the data, in one order or the other. -/
theorem unchanged_swap (kd : NavKind) (p : List InavCall) {c c' : InavCall} (h : c.svn ≠ c'.svn ∨ c.type ≠ c'.type) (v : Svn)
    (h1 : kd.expected (p ++ [c] ++ [c']) v = kd.expected (p ++ [c]) v) (h2 : kd.expected (p ++ [c]) v = kd.expected p v) :
    kd.expected (p ++ [c'] ++ [c]) v = kd.expected (p ++ [c']) v ∧ kd.expected (p ++ [c']) v = kd.expected p v := by
  have hall : kd.expected (p ++ [c'] ++ [c]) v = kd.expected p v := by
    rw [← kd.expected_same (SameWords.swap p h) v, h1, h2]
  have hc : kd.expected (p ++ [c']) v = kd.expected p v := by
    by_cases hv : c'.svn = v
    · rw [kd.expected_iff] at hall ⊢
      intro f hf
      by_cases hty : c'.type = f.ty
      · have : kd.fieldAfter (p ++ [c'] ++ [c]) v f = kd.fieldAfter (p ++ [c']) v f := by
          rcases h with h | h
          · have := (kd.expected_iff (p ++ [c'] ++ [c]) (p ++ [c']) v).1 (NavKind.expected_other (fun e => h (e.trans hv.symm)))
            exact this f hf
          · exact NavKind.fieldAfter_other (fun e => h (e.trans hty.symm))
        rw [← this]
        exact hall f hf
      · exact NavKind.fieldAfter_other hty
    · exact NavKind.expected_other hv
  exact ⟨hall.trans hc.symm, hc⟩

/-- Words of two satellites or two types in the same subframe, in either order. -/
theorem word_swap (depth : Nat) {c c' : InavCall} (hv : c.svn ≠ c'.svn ∨ c.type ≠ c'.type) (hg : c.gst.subframe = c'.gst.subframe) (fs : List NavFrame) :
    SameFrames (wordReceived depth c' (wordReceived depth c fs)) (wordReceived depth c (wordReceived depth c' fs)) := by
  cases fs with
  | nil =>
    unfold wordReceived
    dsimp only
    rw [if_pos hg, if_pos hg.symm]
    refine .cons ⟨hg.symm, SameWords.swap [] hv, ?_⟩ .nil
    funext kd v
    dsimp only
    split <;> split <;> rfl
  | cons f fs =>
    unfold wordReceived
    dsimp only
    rw [if_pos hg, if_pos hg.symm, hg]
    refine .cons ⟨rfl, SameWords.swap f.words hv, ?_⟩ (.refl _)
    funext kd v
    dsimp only
    unfold NavFrame.data
    dsimp only
    have hv' : c'.svn ≠ c.svn ∨ c'.type ≠ c.type := hv.imp Ne.symm Ne.symm
    by_cases h1 : kd.expected (f.words ++ [c] ++ [c']) v = kd.expected (f.words ++ [c]) v
    · by_cases h2 : kd.expected (f.words ++ [c]) v = kd.expected f.words v
      · obtain ⟨h3, h4⟩ := unchanged_swap kd f.words hv v h1 h2
        rw [if_pos h1, if_pos h2, if_pos h3, if_pos h4]
      · rw [if_pos h1, if_neg h2]
        by_cases h3 : kd.expected (f.words ++ [c'] ++ [c]) v = kd.expected (f.words ++ [c']) v
        · rw [if_pos h3]
          by_cases h4 : kd.expected (f.words ++ [c']) v = kd.expected f.words v
          · exact absurd (unchanged_swap kd f.words hv' v h3 h4).2 h2
          · rw [if_neg h4]
        · rw [if_neg h3]
    · rw [if_neg h1]
      by_cases h3 : kd.expected (f.words ++ [c'] ++ [c]) v = kd.expected (f.words ++ [c']) v
      · rw [if_pos h3]
        by_cases h4 : kd.expected (f.words ++ [c']) v = kd.expected f.words v
        · exact absurd (unchanged_swap kd f.words hv' v h3 h4).1 h1
        · rw [if_neg h4]
      · rw [if_neg h3]

theorem SameFrames.counts {fs fs' : List NavFrame} (h : SameFrames fs fs') {f f' : NavFrame} (hf : SameFrame f f') (kd : NavKind) (v : Svn)
    (u : TagUse) (hc : u.CountsFor C fs kd v f) : u.CountsFor C fs' kd v f' := by
  obtain ⟨a, b, c, d, y, hy, e1, e2, e3, e4, e5⟩ := hc
  obtain ⟨y', hy', hs⟩ := h.mem hy
  refine ⟨a, b, c, (hf.has v).1 d, y', hy', by rw [← hs.gst]; exact e1, (hs.has v).1 e2, ?_, ?_, ?_⟩
  · rw [← (kd.ages_same hs.words v).1]; exact e3
  · rw [← hf.data, ← hs.data]; exact e4
  · rw [← hf.data]; exact e5

theorem SameFrames.gain {fs fs' : List NavFrame} (h : SameFrames fs fs') {f f' : NavFrame} (hf : SameFrame f f') (us : List TagUse)
    (kd : NavKind) (v : Svn) : gainFor C fs us kd v f = gainFor C fs' us kd v f' := by
  unfold gainFor
  congr 1
  refine List.map_congr_left ?_
  intro u _
  have : u.CountsFor C fs kd v f ↔ u.CountsFor C fs' kd v f' := ⟨h.counts hf kd v u, h.symm.counts hf.symm kd v u⟩
  by_cases hu : u.CountsFor C fs kd v f
  · rw [if_pos hu, if_pos (this.1 hu)]
  · rw [if_neg hu, if_neg (fun x => hu (this.2 x))]

theorem SameFrames.checked {fs fs' : List NavFrame} (h : SameFrames fs fs') (us : NavKind → List TagUse) :
    SameFrames (tagsChecked C us fs) (tagsChecked C us fs') := by
  unfold tagsChecked
  have : ∀ {xs xs' : List NavFrame}, SameFrames xs xs' → SameFrames
      (xs.map (fun f => { f with auth := fun kd v => min 65535 (f.auth kd v + gainFor C fs (us kd) kd v f) }))
      (xs'.map (fun f => { f with auth := fun kd v => min 65535 (f.auth kd v + gainFor C fs' (us kd) kd v f) })) := by
    intro xs xs' hx
    induction hx with
    | nil => exact .nil
    | cons hf _ ih =>
      refine .cons ⟨hf.gst, hf.words, ?_⟩ ih
      funext kd v
      dsimp only
      rw [hf.auth, h.gain hf]
  exact this h

theorem SameFrames.authenticated {fs fs' : List NavFrame} (h : SameFrames fs fs') (kd : NavKind) (v : Svn) :
    authenticated fs kd v = authenticated fs' kd v := by
  unfold Verif.authenticated
  induction h with
  | nil => rfl
  | @cons f f' fs fs' hf _ ih =>
    rw [List.find?_cons, List.find?_cons, hf.auth]
    split
    · simp only [Option.map_some]
      rw [hf.data, hf.auth, hf.gst, (kd.ages_same hf.words v).2]
    · exact ih

/-! ## Pages -/

/-- The same pages of each satellite since the subframe last changed. -/
def SamePages (p q : List Page) : Prop :=
  ∀ (g : Gst) (v : Svn), (sinceSubframe p g).filter (fun x => x.svn == v) = (sinceSubframe q g).filter (fun x => x.svn == v)

theorem SamePages.refl (p : List Page) : SamePages p p := fun _ _ => rfl

theorem SamePages.snoc {p q : List Page} (h : SamePages p q) (x : Page) : SamePages (p ++ [x]) (q ++ [x]) := by
  intro g v
  rw [sinceSubframe_append, sinceSubframe_append]
  split
  · rw [List.filter_append, List.filter_append, h g v]
  · rfl

theorem SamePages.append {p q : List Page} (h : SamePages p q) (r : List Page) : SamePages (p ++ r) (q ++ r) := by
  induction r generalizing p q with
  | nil => simpa using h
  | cons x r ih =>
    have := ih (h.snoc x)
    simpa using this

theorem SamePages.swap (p : List Page) {x y : Page} (hv : x.svn ≠ y.svn) (hg : x.sub = y.sub) :
    SamePages (p ++ [x] ++ [y]) (p ++ [y] ++ [x]) := by
  intro g v
  rw [sinceSubframe_append, sinceSubframe_append, sinceSubframe_append, sinceSubframe_append, hg]
  by_cases h : y.sub = g
  · simp only [h, if_true, List.filter_append, List.append_assoc]
    congr 1
    by_cases h1 : x.svn = v
    · have h2 : ¬ y.svn = v := fun h2 => hv (h1.trans h2.symm)
      simp [h1, h2]
    · simp [List.filter_cons, h1]
  · simp only [h, if_false]

theorem SamePages.completes {p q : List Page} (h : SamePages p q) {x : Page} {r : Received} (hc : CompletesSubframe p x r) :
    CompletesSubframe q x r := by
  obtain ⟨h1, h2, h3, h4, h5, h6⟩ := hc
  have := h x.sub x.svn
  exact ⟨h1, h2, by rw [← this]; exact h3, by rw [← this]; exact h4, by rw [← this]; exact h5, h6⟩

theorem SamePages.symm {p q : List Page} (h : SamePages p q) : SamePages q p := fun g v => (h g v).symm

/-- A page of another satellite in the same subframe does not matter. -/
theorem completes_other (p : List Page) {x y : Page} (hv : y.svn ≠ x.svn) (hg : y.sub = x.sub) {r : Received} :
    CompletesSubframe (p ++ [y]) x r ↔ CompletesSubframe p x r := by
  have : (sinceSubframe (p ++ [y]) x.sub).filter (fun q => q.svn == x.svn) = (sinceSubframe p x.sub).filter (fun q => q.svn == x.svn) := by
    rw [sinceSubframe_append, if_pos hg, List.filter_append]
    have : (y.svn == x.svn) = false := by simpa using hv
    simp [this]
  constructor
  · intro ⟨h1, h2, h3, h4, h5, h6⟩
    rw [this] at h3 h4 h5
    exact ⟨h1, h2, h3, h4, h5, h6⟩
  · intro ⟨h1, h2, h3, h4, h5, h6⟩
    rw [← this] at h3 h4 h5
    exact ⟨h1, h2, h3, h4, h5, h6⟩

/-! ## Moves of the machine -/

/-- State of the machine. -/
structure MState (C : Crypto) where
  rs : List Received
  log : List (KeyEvent C)
  fs : List NavFrame

/-- One step of the machine, after the pages `ps`. -/
inductive Move (root0 : Option MerkleTreeNode) (pk0 : Option (PublicKey C)) (S : Storage) (slow : Bool) (ps : List Page) :
    MState C → Call → MState C → Prop
  | word (s : MState C) (c : InavCall) :
      Move root0 pk0 S slow ps s (.inav c.word c.svn c.gst c.band) ⟨s.rs, s.log, wordReceived S.navDepth c s.fs⟩
  | quiet (s : MState C) (p : Page) (h : p.data.val.all (fun x => x == 0#8) = true ∨ ∀ r, ¬ CompletesSubframe ps p r) :
      Move root0 pk0 S slow ps s (.osnma p.data p.svn p.gst) s
  | subframe {s : MState C} {l₁ l₂ : List (KeyEvent C)} {fs' : List NavFrame} (p : Page) (r : Received)
      (hz : p.data.val.all (fun x => x == 0#8) = false)
      (hr : CompletesSubframe ps p r)
      (h₁ : Exactly (fun e => ∃ data, CompletesDsmWith (s.rs.map Received.dsmCall) r.dsmCall data ∧ DsmMessage root0 pk0 s.log r data e) l₁)
      (h₂ : Exactly (fun e => ∃ k, e = .tesla k ∧ TeslaMessage (s.log ++ l₁) r k) l₂)
      (h₃ : KeyUsed S slow ((s.rs ++ [r]).map Received.mackCall) (s.log ++ l₁ ++ l₂) s.fs l₂ fs') :
      Move root0 pk0 S slow ps s (.osnma p.data p.svn p.gst) ⟨s.rs ++ [r], s.log ++ l₁ ++ l₂, fs'⟩

theorem machine_snoc {hist : List Call} {c : Call} {t : MState C} :
    NavMachine root0 pk0 S slow (hist ++ [c]) t.rs t.log t.fs ↔
      ∃ s : MState C, NavMachine root0 pk0 S slow hist s.rs s.log s.fs ∧ Move root0 pk0 S slow (pagesOf hist) s c t := by
  constructor
  · intro h
    obtain ⟨rs, log, fs⟩ := t
    dsimp only at h
    generalize hh : hist ++ [c] = hist' at h
    cases h with
    | nil => simp at hh
    | @word hist' rs log fs c' h =>
      obtain ⟨rfl, rfl⟩ := append_singleton_cancel hh
      exact ⟨⟨rs, log, fs⟩, h, .word _ c'⟩
    | zero p h hz =>
      obtain ⟨rfl, rfl⟩ := append_singleton_cancel hh
      exact ⟨⟨rs, log, fs⟩, h, .quiet _ p (.inl hz)⟩
    | page p h hz hn =>
      obtain ⟨rfl, rfl⟩ := append_singleton_cancel hh
      exact ⟨⟨rs, log, fs⟩, h, .quiet _ p (.inr hn)⟩
    | @subframe hist' rs log l₁ l₂ fs fs' p r h hz hr h₁ h₂ h₃ =>
      obtain ⟨rfl, rfl⟩ := append_singleton_cancel hh
      exact ⟨⟨rs, log, fs⟩, h, .subframe p r hz hr h₁ h₂ h₃⟩
  · rintro ⟨s, h, m⟩
    cases m with
    | word c => exact .word c h
    | quiet p hq =>
      cases hz : p.data.val.all (fun x => x == 0#8) with
      | true => exact .zero p h hz
      | false =>
        rcases hq with hq | hq
        · rw [hz] at hq; cases hq
        · exact .page p h hz hq
    | subframe p r hz hr h₁ h₂ h₃ => exact .subframe p r h hz hr h₁ h₂ h₃

/-- States that differ in the order of words only. -/
structure SameState (s t : MState C) : Prop where
  rs : s.rs = t.rs
  log : s.log = t.log
  fs : SameFrames s.fs t.fs

theorem SameState.refl (s : MState C) : SameState s s := ⟨rfl, rfl, .refl _⟩
theorem SameState.trans {s t u : MState C} (h : SameState s t) (h' : SameState t u) : SameState s u :=
  ⟨h.rs.trans h'.rs, h.log.trans h'.log, h.fs.trans h'.fs⟩

theorem Move.congr {ps ps' : List Page} (hp : SamePages ps ps') {s s' t : MState C} (hs : SameState s s') {c : Call}
    (m : Move root0 pk0 S slow ps s c t) : ∃ t', Move root0 pk0 S slow ps' s' c t' ∧ SameState t t' := by
  obtain ⟨rs, log, fs⟩ := s
  obtain ⟨rs', log', fs'⟩ := s'
  obtain ⟨h1, h2, h3⟩ := hs
  dsimp only at h1 h2 h3
  subst h1 h2
  cases m with
  | word c => exact ⟨_, .word _ c, rfl, rfl, h3.word _ _⟩
  | quiet p hq =>
    refine ⟨_, .quiet _ p ?_, rfl, rfl, h3⟩
    rcases hq with hq | hq
    · exact .inl hq
    · exact .inr (fun r hr => hq r (hp.symm.completes hr))
  | @subframe l₁ l₂ fs₂ p r hz hr h₁ h₂ h₃ =>
    dsimp only at h₁ h₂ h₃
    cases h₃ with
    | none => exact ⟨⟨rs ++ [r], log ++ l₁ ++ [], fs'⟩, .subframe p r hz (hp.completes hr) h₁ h₂ .none, rfl, rfl, h3⟩
    | key k t1 t10 t11 e1 e10 e11 =>
      exact ⟨⟨_, _, _⟩, .subframe p r hz (hp.completes hr) h₁ h₂ (.key k t1 t10 t11 e1 e10 e11), rfl, rfl, h3.checked _⟩

/-- A page that is not the last one. -/
theorem word_ne_last {p : Page} (h : ¬ p.gst.LastPage) : p.word ≠ 14 := by
  unfold Gst.LastPage at h
  unfold Page.word Page.sub
  have : p.gst.subframe.tow = p.gst.tow / 30 * 30 := by rfl
  omega

theorem not_completes {ps : List Page} {p : Page} (h : ¬ p.gst.LastPage) (r : Received) : ¬ CompletesSubframe ps p r :=
  fun hc => word_ne_last h hc.last

theorem Move.notLast {ps : List Page} {s t : MState C} {d : OsnmaDataMessage} {v : Svn} {g : Gst} (h : ¬ g.LastPage)
    (m : Move root0 pk0 S slow ps s (.osnma d v g) t) : t = s := by
  generalize hc : Call.osnma d v g = c at m
  cases m with
  | word c => cases hc
  | quiet p hq => rfl
  | subframe p r hz hr => cases hc; exact absurd hr (not_completes h r)

theorem Move.pass {ps : List Page} {s : MState C} {d : OsnmaDataMessage} {v : Svn} {g : Gst} (h : ¬ g.LastPage) :
    Move root0 pk0 S slow ps s (.osnma d v g) s :=
  .quiet s ⟨d, v, g⟩ (.inr (not_completes (p := ⟨d, v, g⟩) h))

/-- A page does not matter to a move with another satellite in the same subframe. -/
theorem Move.other {ps : List Page} {s t : MState C} {d d' : OsnmaDataMessage} {v v' : Svn} {g g' : Gst} (hv : v' ≠ v)
    (hg : g'.subframe = g.subframe) :
    Move root0 pk0 S slow (ps ++ pagesOf [.osnma d' v' g']) s (.osnma d v g) t ↔ Move root0 pk0 S slow ps s (.osnma d v g) t := by
  cases hz : d'.val.all (fun x => x == 0#8) with
  | true =>
    have : pagesOf [Call.osnma d' v' g'] = [] := by
      simp only [pagesOf, List.filterMap_cons, hz, if_true, List.filterMap_nil]
    rw [this, List.append_nil]
  | false =>
    have : pagesOf [Call.osnma d' v' g'] = [⟨d', v', g'⟩] := by
      simp only [pagesOf, List.filterMap_cons, hz, if_false, List.filterMap_nil, Bool.false_eq_true]
    rw [this]
    constructor
    · intro m
      generalize hc : Call.osnma d v g = c at m
      cases m with
      | word c => cases hc
      | quiet p hq =>
        cases hc
        exact .quiet s _ (hq.imp id (fun h r hr => h r ((completes_other (x := p) (y := ⟨d', v', g'⟩) ps hv hg).2 hr)))
      | subframe p r hz hr h₁ h₂ h₃ => cases hc; exact .subframe _ r hz ((completes_other (x := p) (y := ⟨d', v', g'⟩) ps hv hg).1 hr) h₁ h₂ h₃
    · intro m
      generalize hc : Call.osnma d v g = c at m
      cases m with
      | word c => cases hc
      | quiet p hq =>
        cases hc
        exact .quiet s _ (hq.imp id (fun h r hr => h r ((completes_other (x := p) (y := ⟨d', v', g'⟩) ps hv hg).1 hr)))
      | subframe p r hz hr h₁ h₂ h₃ => cases hc; exact .subframe _ r hz ((completes_other (x := p) (y := ⟨d', v', g'⟩) ps hv hg).2 hr) h₁ h₂ h₃

theorem Move.inav {ps ps' : List Page} {s t : MState C} {w : InavWord} {v : Svn} {g : Gst} {b : InavBand}
    (m : Move root0 pk0 S slow ps s (.inav w v g b) t) : Move root0 pk0 S slow ps' s (.inav w v g b) t := by
  generalize hc : Call.inav w v g b = c at m
  cases m with
  | word c => exact .word s c
  | quiet => cases hc
  | subframe => cases hc

/-- Independent calls can be exchanged. -/
theorem Move.swap {ps : List Page} {s t u : MState C} {c c' : Call} (hi : c.Independent c') (m : Move root0 pk0 S slow ps s c t)
    (m' : Move root0 pk0 S slow (ps ++ pagesOf [c]) t c' u) :
    ∃ t' u', Move root0 pk0 S slow ps s c' t' ∧ Move root0 pk0 S slow (ps ++ pagesOf [c']) t' c u' ∧ SameState u u' := by
  cases c with
  | inav w v g b =>
    cases c' with
    | inav w' v' g' b' =>
      obtain ⟨hv, hg⟩ := hi
      generalize hc : Call.inav w v g b = c at m
      generalize hc' : Call.inav w' v' g' b' = c' at m'
      cases m with
      | quiet => cases hc
      | subframe => cases hc
      | word x =>
        cases m' with
        | quiet => cases hc'
        | subframe => cases hc'
        | word x' =>
          cases hc; cases hc'
          exact ⟨_, _, .word s x', .word _ x, rfl, rfl, word_swap _ hv hg _⟩
    | osnma d' v' g' =>
      have := m'.notLast hi
      subst this
      exact ⟨s, u, .pass hi, m.inav, .refl _⟩
  | osnma d v g =>
    cases c' with
    | inav w' v' g' b' =>
      have := m.notLast hi
      subst this
      exact ⟨u, u, m'.inav, .pass hi, .refl _⟩
    | osnma d' v' g' =>
      obtain ⟨hv, hg, hl⟩ := hi
      by_cases h1 : g.LastPage
      · have h2 : ¬ g'.LastPage := fun h2 => hl ⟨h1, h2⟩
        have := m'.notLast h2
        subst this
        exact ⟨s, u, .pass h2, (Move.other (Ne.symm hv) hg.symm).2 m, .refl _⟩
      · have := m.notLast h1
        subst this
        exact ⟨u, u, (Move.other hv hg).1 m', .pass h1, .refl _⟩

/-! ## Histories -/

theorem samePages_swap (a : List Call) {c c' : Call} (hi : c.Independent c') :
    SamePages (pagesOf (a ++ [c] ++ [c'])) (pagesOf (a ++ [c'] ++ [c])) := by
  have ha : ∀ x y : List Call, pagesOf (x ++ y) = pagesOf x ++ pagesOf y := fun x y => List.filterMap_append
  rw [ha, ha, ha, ha]
  cases c with
  | inav w v g b =>
    have : pagesOf [Call.inav w v g b] = [] := rfl
    rw [this, List.append_nil, List.append_nil]
    exact .refl _
  | osnma d v g =>
    cases c' with
    | inav w' v' g' b' =>
      have : pagesOf [Call.inav w' v' g' b'] = [] := rfl
      rw [this, List.append_nil, List.append_nil]
      exact .refl _
    | osnma d' v' g' =>
      obtain ⟨hv, hg, _⟩ := hi
      have hp : ∀ (d : OsnmaDataMessage) (v : Svn) (g : Gst), pagesOf [Call.osnma d v g] =
          if d.val.all (fun x => x == 0#8) = true then [] else [⟨d, v, g⟩] := by
        intro d v g
        cases hz : d.val.all (fun x => x == 0#8) <;>
          simp only [pagesOf, List.filterMap_cons, hz, if_true, if_false, List.filterMap_nil, Bool.false_eq_true]
      rw [hp, hp]
      split <;> split
      · simp only [List.append_nil]; exact .refl _
      · simp only [List.append_nil]; exact .refl _
      · simp only [List.append_nil]; exact .refl _
      · exact .swap _ hv hg

theorem machine_swap (a : List Call) {c c' : Call} (hi : c.Independent c') (b : List Call) :
    ∀ s : MState C, NavMachine root0 pk0 S slow (a ++ [c] ++ [c'] ++ b) s.rs s.log s.fs →
      ∃ s', NavMachine root0 pk0 S slow (a ++ [c'] ++ [c] ++ b) s'.rs s'.log s'.fs ∧ SameState s s' := by
  have ha : ∀ x y : List Call, pagesOf (x ++ y) = pagesOf x ++ pagesOf y := fun x y => List.filterMap_append
  induction b using CollectSubframe.snoc_induction with
  | h0 =>
    intro s h
    rw [List.append_nil] at h ⊢
    obtain ⟨t, h, m'⟩ := machine_snoc.1 h
    obtain ⟨r, h, m⟩ := machine_snoc.1 h
    rw [ha] at m'
    obtain ⟨t', u', n, n', he⟩ := Move.swap hi m m'
    refine ⟨u', machine_snoc.2 ⟨t', machine_snoc.2 ⟨r, h, n⟩, by rw [ha]; exact n'⟩, he⟩
  | h1 b d ih =>
    intro s h
    rw [← List.append_assoc] at h ⊢
    obtain ⟨t, h, m⟩ := machine_snoc.1 h
    obtain ⟨t', h', he⟩ := ih t h
    have hp : SamePages (pagesOf (a ++ [c] ++ [c'] ++ b)) (pagesOf (a ++ [c'] ++ [c] ++ b)) := by
      rw [ha _ b, ha _ b]; exact (samePages_swap a hi).append _
    obtain ⟨s', m', hs⟩ := m.congr hp he
    exact ⟨s', machine_snoc.2 ⟨t', h', m'⟩, hs⟩

theorem machine_interleaved {x y : List Call} (h : Interleaved x y) : ∀ s : MState C, NavMachine root0 pk0 S slow x s.rs s.log s.fs →
    ∃ s', NavMachine root0 pk0 S slow y s'.rs s'.log s'.fs ∧ SameState s s' := by
  induction h with
  | same h => exact fun s hs => ⟨s, hs, .refl s⟩
  | swap a b c c' hi =>
    intro s hs
    have := machine_swap (root0 := root0) (pk0 := pk0) (S := S) (slow := slow) a hi b s (by simpa using hs)
    simpa using this
  | trans _ _ ih ih' =>
    intro s hs
    obtain ⟨t, ht, he⟩ := ih s hs
    obtain ⟨u, hu, he'⟩ := ih' t ht
    exact ⟨u, hu, he.trans he'⟩

/-- What does not change: the subframes of the pages and words, and the words. -/
theorem Interleaved.same_times {x y : List Call} (h : Interleaved x y) :
    (pagesOf x).map Page.sub = (pagesOf y).map Page.sub ∧
    (inavsOf x).map (fun c => c.gst.subframe) = (inavsOf y).map (fun c => c.gst.subframe) ∧ ∀ c, c ∈ x ↔ c ∈ y := by
  induction h with
  | same h => exact ⟨rfl, rfl, fun _ => .rfl⟩
  | trans _ _ ih ih' => exact ⟨ih.1.trans ih'.1, ih.2.1.trans ih'.2.1, fun c => (ih.2.2 c).trans (ih'.2.2 c)⟩
  | swap a b c c' hi =>
    have ha : ∀ x y : List Call, pagesOf (x ++ y) = pagesOf x ++ pagesOf y := fun x y => List.filterMap_append
    have hb : ∀ x y : List Call, inavsOf (x ++ y) = inavsOf x ++ inavsOf y := fun x y => List.filterMap_append
    have e : ∀ u v : Call, a ++ u :: v :: b = a ++ ([u] ++ [v]) ++ b := by intro u v; simp
    rw [e c c', e c' c]
    simp only [ha, hb, List.map_append]
    have hp : ∀ (d : OsnmaDataMessage) (v : Svn) (g : Gst), (pagesOf [Call.osnma d v g]).map Page.sub =
        if d.val.all (fun x => x == 0#8) = true then [] else [g.subframe] := by
      intro d v g
      cases hz : d.val.all (fun x => x == 0#8) <;>
        simp only [pagesOf, List.filterMap_cons, hz, if_true, if_false, List.filterMap_nil, Bool.false_eq_true, List.map_nil,
          List.map_cons] <;> rfl
    have hq : ∀ (w : InavWord) (v : Svn) (g : Gst) (b : InavBand), pagesOf [Call.inav w v g b] = [] := fun _ _ _ _ => rfl
    have hw : ∀ (w : InavWord) (v : Svn) (g : Gst) (b : InavBand), inavsOf [Call.inav w v g b] = [⟨w, v, g, b⟩] := fun _ _ _ _ => rfl
    have hn : ∀ (d : OsnmaDataMessage) (v : Svn) (g : Gst), inavsOf [Call.osnma d v g] = [] := fun _ _ _ => rfl
    refine ⟨?_, ?_, fun z => by simp only [List.mem_append, List.mem_singleton]; grind⟩
    · cases c <;> cases c' <;> try simp only [hq, List.map_nil, List.append_nil, List.nil_append]
      rename_i d v g d' v' g'
      rw [hp, hp, hi.2.1]
      split <;> split <;> rfl
    · cases c <;> cases c' <;> try simp only [hn, hw, List.map_nil, List.append_nil, List.nil_append]
      rename_i w v g b w' v' g' b'
      simp only [List.map_cons, List.map_nil]
      rw [hi.2]

end Verif
