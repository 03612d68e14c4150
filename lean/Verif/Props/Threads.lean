import Verif.Model.Threads
import Verif.Props.Multipass

/-!
# C121: several couples computed at the same time with one object

The right result of a couple is what `calcul` returns when it runs alone with an object which has just been built.
-/

namespace Verif
open Threads
open Verif.PivGrid
open Verif.Multipass (Work prepareGrid Passes)

namespace Threads
variable {S A C D R K M B α : Type}

/-! ## Threads and interference -/

/-- Whatever the others do to the memory (`rely`), each step of the thread is one of `guar`, and what it returns satisfies `Q` with the memory at
this time. -/
def Safe (rely guar : S → S → Prop) (Q : A → S → Prop) : Prog S A → S → Prop
  | .done a, s => Q a s
  | .op upd next, s0 => ∀ s, rely s0 s → guar s (upd s) ∧ Safe rely guar Q (next s) (upd s)

theorem safe_mono {rel : S → S → Prop} (htr : ∀ a b c, rel a b → rel b c → rel a c) {guar : S → S → Prop} {Q : A → Prop}
    (p : Prog S A) (s s' : S) (h : Safe rel guar (fun a _ => Q a) p s) (hs : rel s s') : Safe rel guar (fun a _ => Q a) p s' := by
  cases p with
  | done a => exact h
  | op upd next => intro x hx; exact h x (htr _ _ _ hs hx)

theorem exec_safe {rel : S → S → Prop} (hrefl : ∀ a, rel a a) (htr : ∀ a b c, rel a b → rel b c → rel a c) {Q : Nat → A → Prop} :
    ∀ (sched : List Nat) (s : S) (ps : List (Prog S A)),
      (∀ i p, ps[i]? = some p → Safe rel rel (fun a _ => Q i a) p s) →
      ∀ i p, (exec (s, ps) sched).2[i]? = some p → Safe rel rel (fun a _ => Q i a) p (exec (s, ps) sched).1 := by
  intro sched
  induction sched with
  | nil => intro s ps h; exact h
  | cons j sched ih =>
    intro s ps h
    have key : ∀ i p, (turn (s, ps) j).2[i]? = some p → Safe rel rel (fun a _ => Q i a) p (turn (s, ps) j).1 := by
      unfold turn
      cases hj : ps[j]? with
      | none => simpa [hj] using h
      | some q =>
        cases q with
        | done a => simpa [hj] using h
        | op upd next =>
          intro i p hp
          simp only [hj] at hp ⊢
          have hsafe := h j _ hj s (hrefl s)
          rw [List.getElem?_set] at hp
          split at hp
          · rename_i e
            split at hp
            · obtain rfl := Option.some.inj hp
              rw [← e]; exact hsafe.2
            · cases hp
          · exact safe_mono htr _ _ _ (h i p hp) hsafe.1
    exact ih _ _ key

theorem alone_safe {Q : A → S → Prop} : ∀ (p : Prog S A) (s : S), Safe Eq (fun _ _ => True) Q p s → Q (p.alone s).2 (p.alone s).1
  | .done _, _, h => h
  | .op upd next, s, h => alone_safe (next s) (upd s) (h s rfl).2

/-! ## The attributes -/

/-- The correlation of the two windows. -/
def corr (E : Env C D R K M) (w : R × R) : M :=
  E.map (E.forward w.1) (E.forward w.2) (E.backward (E.prod (E.forward w.1) (E.forward w.2)))

def onePass (E : Env C D R K M) (w : Work) (g : Grid) (c : C) : Except PyErr D :=
  match E.firstWindows w g.points (E.npad w) c with
  | .error e => .error e
  | .ok wins => match E.firstResult w g.points c (wins.map (corr E)) with
    | .error e => .error e
    | .ok d => E.fix w g.ixvecs g.iyvecs d

def otherPass (E : Env C D R K M) (w : Work) (g : Grid) (sh : Nat × Nat) (c : C) (d : D) : Except PyErr (D × D) :=
  match E.interp w g d with
  | .error e => .error e
  | .ok d' => match E.laterWindows w g.points sh (E.npad w) c d' with
    | .error e => .error e
    | .ok wins => match E.laterResult w g.points sh c d' (wins.map (corr E)) with
      | .error e => .error e
      | .ok x => match E.fix w g.ixvecs g.iyvecs x with
        | .error e => .error e
        | .ok x => .ok (d', x)

/-- The passes without shared memory, for the model `Multipass`. -/
def passesOf (E : Env C D R K M) : Passes C D where
  mask := E.mask
  shape := E.shape
  first w g _ c := onePass E w g c
  later w g sh c d := otherPass E w g sh c d
  fix _ d := .ok d
  final w g d := E.final w g d

def OkAt (E : Env C D R K M) (w : Work) (sh : Nat × Nat) (a : Attrs R K) : Prop :=
  (∀ n, a.npad = some n → n = E.npad w) ∧ (∀ v, a.imshape = some v → v = sh) ∧
  (∀ v, a.ixvecs = some v → ∃ g, prepareGrid w sh = .ok g ∧ v = g.ixvecs) ∧
  (∀ v, a.iyvecs = some v → ∃ g, prepareGrid w sh = .ok g ∧ v = g.iyvecs) ∧
  (∀ v, a.ixGrid = some v → ∃ g, prepareGrid w sh = .ok g ∧ v = g.points.map Prod.fst) ∧
  (∀ v, a.iyGrid = some v → ∃ g, prepareGrid w sh = .ok g ∧ v = g.points.map Prod.snd) ∧
  (a.ixGrid.isSome → a.imshape.isSome ∧ a.ixvecs.isSome ∧ a.iyvecs.isSome)

def Le (a b : Attrs R K) : Prop :=
  (a.imshape.isSome → b.imshape.isSome) ∧ (a.ixvecs.isSome → b.ixvecs.isSome) ∧ (a.iyvecs.isSome → b.iyvecs.isSome) ∧
  (a.ixGrid.isSome → b.ixGrid.isSome) ∧ (a.iyGrid.isSome → b.iyGrid.isSome) ∧ (a.npad.isSome → b.npad.isSome)

theorem Le.refl (a : Attrs R K) : Le a a := ⟨id, id, id, id, id, id⟩

theorem Le.trans {a b c : Attrs R K} (h : Le a b) (h' : Le b c) : Le a c :=
  ⟨h'.1 ∘ h.1, h'.2.1 ∘ h.2.1, h'.2.2.1 ∘ h.2.2.1, h'.2.2.2.1 ∘ h.2.2.2.1, h'.2.2.2.2.1 ∘ h.2.2.2.2.1,
    h'.2.2.2.2.2 ∘ h.2.2.2.2.2⟩

def LeAll (s s' : Obj R K) : Prop := ∀ p, Le (s p) (s' p)

theorem LeAll.refl (s : Obj R K) : LeAll s s := fun _ => Le.refl _

theorem LeAll.trans {a b c : Obj R K} (h : LeAll a b) (h' : LeAll b c) : LeAll a c := fun p => (h p).trans (h' p)

theorem LeAll.ix {a b : Obj R K} (h : LeAll a b) (p : Nat) : (a p).ixGrid.isSome → (b p).ixGrid.isSome := (h p).2.2.2.1

def Ok (E : Env C D R K M) (works : List Work) (sh : Nat × Nat) (s : Obj R K) : Prop :=
  ∀ p w, works[p]? = some w → OkAt E w sh (s p)

theorem ok_update {E : Env C D R K M} {works : List Work} {sh : Nat × Nat} {s : Obj R K} (h : Ok E works sh s) (p : Nat) (w : Work)
    (hw : works[p]? = some w) (a : Attrs R K) (ha : OkAt E w sh a) : Ok E works sh (Function.update s p a) := by
  intro q v hv
  by_cases hq : q = p
  · subst hq
    rw [hw] at hv; obtain rfl := Option.some.inj hv
    simpa using ha
  · rw [Function.update_of_ne hq]; exact h q v hv

theorem le_update (s : Obj R K) (p : Nat) (a : Attrs R K) (h : Le (s p) a) : LeAll s (Function.update s p a) := by
  intro q
  by_cases hq : q = p
  · subst hq; simpa using h
  · rw [Function.update_of_ne hq]; exact Le.refl _

/-! ## The conditions in which `calcul` gives the right result -/

structure Mode (E : Env C D R K M) (works : List Work) (sh : Nat × Nat) (Q : Except PyErr B → Obj R K → Prop) where
  rely : Obj R K → Obj R K → Prop
  guar : Obj R K → Obj R K → Prop
  Inv : Obj R K → Prop
  ok : ∀ s, Inv s → Ok E works sh s
  stable : ∀ s s', rely s s' → Inv s → Inv s' ∧ LeAll s s'
  same : ∀ s, Inv s → guar s s
  npad : ∀ s p w, works[p]? = some w → Inv s → Inv (Function.update s p { s p with npad := some (E.npad w) }) ∧
    guar s (Function.update s p { s p with npad := some (E.npad w) })
  imshape : ∀ s p w, works[p]? = some w → Inv s → Inv (Function.update s p { s p with imshape := some sh }) ∧
    guar s (Function.update s p { s p with imshape := some sh })
  grid : ∀ s p w g (k : Part R K B), works[p]? = some w → prepareGrid w sh = .ok g → Inv s → (s p).ixGrid = none →
    (∀ s', Inv s' → LeAll s s' → (s' p).ixGrid.isSome → Safe rely guar Q k s') → Safe rely guar Q (prepare w p sh k) s
  iy : (∀ s, Inv s → Q (.error .attributeError) s) ∨ ∀ s p w, works[p]? = some w → Inv s → (s p).ixGrid.isSome → (s p).iyGrid.isSome
  loop : ∀ s p w wins (k : List M → Part R K B), works[p]? = some w → Inv s →
    (∀ s', Inv s' → LeAll s s' → Safe rely guar Q (k (wins.map (corr E))) s') → Safe rely guar Q (loop E p wins k) s

section
variable {E : Env C D R K M} {works : List Work} {sh : Nat × Nat} {Q : Except PyErr B → Obj R K → Prop}

/-- A reading of an attribute. -/
theorem safe_read (m : Mode E works sh Q) (p : Nat) (f : Attrs R K → Option α) (k : α → Part R K B) (s0 : Obj R K) (hI : m.Inv s0)
    (hk : ∀ s, m.Inv s → LeAll s0 s →
      (f (s p) = none ∧ Q (.error .attributeError) s) ∨ ∃ a, f (s p) = some a ∧ Safe m.rely m.guar Q (k a) s) :
    Safe m.rely m.guar Q (read p f k) s0 := by
  intro s hs
  obtain ⟨hI', hle⟩ := m.stable _ _ hs hI
  refine ⟨m.same _ hI', ?_⟩
  rcases hk s hI' hle with ⟨hn, hq⟩ | ⟨a, ha, hsafe⟩
  · simp only [hn]; exact hq
  · simp only [ha]; exact hsafe

theorem safe_withGrid (m : Mode E works sh Q) (p : Nat) (w : Work) (hw : works[p]? = some w) (k : Part R K B) (s0 : Obj R K)
    (hI : m.Inv s0) (herr : ∀ e s, prepareGrid w sh = .error e → m.Inv s → Q (.error e) s)
    (hk : ∀ s g, prepareGrid w sh = .ok g → m.Inv s → LeAll s0 s → (s p).ixGrid.isSome → Safe m.rely m.guar Q k s) :
    Safe m.rely m.guar Q (withGrid w p sh k) s0 := by
  intro s hs
  obtain ⟨hI', hle⟩ := m.stable _ _ hs hI
  refine ⟨m.same _ hI', ?_⟩
  show Safe m.rely m.guar Q (if (s p).ixGrid.isSome then k else prepare w p sh k) s
  by_cases hx : (s p).ixGrid.isSome = true
  · rw [if_pos hx]
    obtain ⟨v, hv⟩ := Option.isSome_iff_exists.1 hx
    obtain ⟨g, hg, _⟩ := (m.ok _ hI' p w hw).2.2.2.2.1 v hv
    exact hk s g hg hI' hle hx
  · rw [if_neg hx]
    cases hg : prepareGrid w sh with
    | error e =>
      intro s' hs'
      obtain ⟨hI'', _⟩ := m.stable _ _ hs' hI'
      obtain ⟨h1, h2⟩ := m.imshape _ _ w hw hI''
      refine ⟨h2, ?_⟩
      rw [hg]; exact herr e _ hg h1
    | ok g =>
      refine m.grid s p w g k hw hg hI' (by simpa using hx) (fun s' h1 h2 h3 => hk s' g hg h1 (hle.trans h2) h3)

/-- What is read when the grid has been computed. -/
theorem reads (m : Mode E works sh Q) {p : Nat} {w : Work} (hw : works[p]? = some w) {g : Grid} (hg : prepareGrid w sh = .ok g)
    {s : Obj R K} (hI : m.Inv s) (hx : (s p).ixGrid.isSome) :
    (s p).ixGrid = some (g.points.map Prod.fst) ∧ (s p).ixvecs = some g.ixvecs ∧ (s p).iyvecs = some g.iyvecs ∧
    (s p).imshape = some sh ∧
    (((s p).iyGrid = none ∧ Q (.error .attributeError) s) ∨ (s p).iyGrid = some (g.points.map Prod.snd)) := by
  obtain ⟨_, hsh, hvx, hvy, hgx, hgy, hall⟩ := m.ok _ hI p w hw
  obtain ⟨h1, h2, h3⟩ := hall hx
  obtain ⟨a, ha⟩ := Option.isSome_iff_exists.1 hx
  obtain ⟨b, hb⟩ := Option.isSome_iff_exists.1 h1
  obtain ⟨c, hc⟩ := Option.isSome_iff_exists.1 h2
  obtain ⟨d, hd⟩ := Option.isSome_iff_exists.1 h3
  refine ⟨?_, ?_, ?_, ?_, ?_⟩
  · obtain ⟨g', hg', e⟩ := hgx a ha
    rw [hg] at hg'; obtain rfl := Except.ok.inj hg'; rw [ha, e]
  · obtain ⟨g', hg', e⟩ := hvx c hc
    rw [hg] at hg'; obtain rfl := Except.ok.inj hg'; rw [hc, e]
  · obtain ⟨g', hg', e⟩ := hvy d hd
    rw [hg] at hg'; obtain rfl := Except.ok.inj hg'; rw [hd, e]
  · rw [hb, hsh b hb]
  · cases hy : (s p).iyGrid with
    | none =>
      left
      rcases m.iy with h | h
      · exact ⟨rfl, h s hI⟩
      · have := h s p w hw hI hx; rw [hy] at this; cases this
    | some v =>
      right
      obtain ⟨g', hg', e⟩ := hgy v hy
      rw [hg] at hg'; obtain rfl := Except.ok.inj hg'; rw [e]

theorem zip_points (l : List (Int × Int)) : (l.map Prod.fst).zip (l.map Prod.snd) = l := by
  induction l with
  | nil => rfl
  | cons a l ih => simp [ih]

theorem safe_fixed (m : Mode E works sh Q) {p : Nat} {w : Work} (hw : works[p]? = some w) {g : Grid} (hg : prepareGrid w sh = .ok g)
    (d : D) (k : D → Part R K B) (s0 : Obj R K) (hI : m.Inv s0) (hx : (s0 p).ixGrid.isSome)
    (herr : ∀ e s, E.fix w g.ixvecs g.iyvecs d = .error e → m.Inv s → Q (.error e) s)
    (hk : ∀ s d', E.fix w g.ixvecs g.iyvecs d = .ok d' → m.Inv s → LeAll s0 s → (s p).ixGrid.isSome → Safe m.rely m.guar Q (k d') s) :
    Safe m.rely m.guar Q (fixed E w p d k) s0 := by
  refine safe_read m _ _ _ _ hI fun s1 hI1 hl1 => Or.inr ⟨_, (reads m hw hg hI1 (hl1.ix p hx)).2.1, ?_⟩
  refine safe_read m _ _ _ _ hI1 fun s2 hI2 hl2 =>
    Or.inr ⟨_, (reads m hw hg hI2 ((hl1.trans hl2).ix p hx)).2.2.1, ?_⟩
  cases hf : E.fix w g.ixvecs g.iyvecs d with
  | error e => exact herr e _ hf hI2
  | ok d' => exact hk s2 d' hf hI2 (hl1.trans hl2) ((hl1.trans hl2).ix p hx)

/-- The reading of `iyvecs_grid`. -/
theorem safe_iy (m : Mode E works sh Q) {p : Nat} {w : Work} (hw : works[p]? = some w) {g : Grid} (hg : prepareGrid w sh = .ok g)
    (k : List Int → Part R K B) (s0 : Obj R K) (hI : m.Inv s0) (hx : (s0 p).ixGrid.isSome)
    (hk : ∀ s, m.Inv s → LeAll s0 s → Safe m.rely m.guar Q (k (g.points.map Prod.snd)) s) :
    Safe m.rely m.guar Q (read p Attrs.iyGrid k) s0 := by
  refine safe_read m _ _ _ _ hI fun s hI' hl => ?_
  rcases (reads m hw hg hI' (hl.ix p hx)).2.2.2.2 with ⟨h, hq⟩ | h
  · exact Or.inl ⟨h, hq⟩
  · exact Or.inr ⟨_, h, hk s hI' hl⟩

/-- The writing then the reading of `npad`. -/
theorem npad_read (m : Mode E works sh Q) {p : Nat} {w : Work} (hw : works[p]? = some w) {s : Obj R K} (hI : m.Inv s)
    (hn : (s p).npad.isSome) : (s p).npad = some (E.npad w) := by
  obtain ⟨n, h⟩ := Option.isSome_iff_exists.1 hn
  rw [h, (m.ok _ hI p w hw).1 n h]

theorem safe_npad (m : Mode E works sh Q) {p : Nat} {w : Work} (hw : works[p]? = some w) (k : Part R K B) (s0 : Obj R K)
    (hI : m.Inv s0) (hk : ∀ s, m.Inv s → LeAll s0 s → (s p).npad.isSome → Safe m.rely m.guar Q k s) :
    Safe m.rely m.guar Q (write p (fun a => { a with npad := some (E.npad w) }) k) s0 := by
  intro s hs
  obtain ⟨hI', hle⟩ := m.stable _ _ hs hI
  obtain ⟨h1, h2⟩ := m.npad s p w hw hI'
  refine ⟨h2, hk _ h1 (hle.trans (le_update s p _ ?_)) (by simp)⟩
  exact ⟨id, id, id, id, id, fun _ => rfl⟩

theorem safe_first (m : Mode E works sh Q) {p : Nat} {w : Work} (hw : works[p]? = some w) (c : C) (hc : E.shape c = sh)
    (k : D → Part R K B) (s0 : Obj R K) (hI : m.Inv s0) (hgerr : ∀ e s, prepareGrid w sh = .error e → m.Inv s → Q (.error e) s)
    (herr : ∀ g e s, prepareGrid w sh = .ok g → onePass E w g c = .error e → m.Inv s → Q (.error e) s)
    (hk : ∀ s g d, prepareGrid w sh = .ok g → onePass E w g c = .ok d → m.Inv s → LeAll s0 s → (s p).ixGrid.isSome →
      Safe m.rely m.guar Q (k d) s) :
    Safe m.rely m.guar Q (first E w p c k) s0 := by
  unfold first
  rw [hc]
  refine safe_withGrid m p w hw _ s0 hI hgerr fun s g hg hI hl0 hx => ?_
  refine safe_npad m hw _ _ hI fun s1 hI1 hl1 hn1 => ?_
  have hx1 := hl1.ix p hx
  refine safe_read m _ _ _ _ hI1 fun s2 hI2 hl2 => Or.inr ⟨_, (reads m hw hg hI2 (hl2.ix p hx1)).1, ?_⟩
  have hx2 := hl2.ix p hx1
  refine safe_read m _ _ _ _ hI2 fun s3 hI3 hl3 =>
    Or.inr ⟨_, npad_read m hw hI3 ((hl2.trans hl3 p).2.2.2.2.2 hn1), ?_⟩
  have hx3 := hl3.ix p hx2
  refine safe_iy m hw hg _ _ hI3 hx3 fun s4 hI4 hl4 => ?_
  have hx4 := hl4.ix p hx3
  simp only [zip_points]
  have hone : onePass E w g c = match E.firstWindows w g.points (E.npad w) c with
      | .error e => .error e
      | .ok wins => match E.firstResult w g.points c (wins.map (corr E)) with
        | .error e => .error e
        | .ok d => E.fix w g.ixvecs g.iyvecs d := rfl
  cases hwin : E.firstWindows w g.points (E.npad w) c with
  | error e => exact herr g e _ hg (by rw [hone, hwin]) hI4
  | ok wins =>
    rw [hwin] at hone
    refine m.loop s4 p w wins _ hw hI4 fun s5 hI5 hl5 => ?_
    have hx5 := hl5.ix p hx4
    cases hres : E.firstResult w g.points c (wins.map (corr E)) with
    | error e => exact herr g e _ hg (by rw [hone]; simp only [hres]) hI5
    | ok d =>
      simp only [hres] at hone
      exact safe_fixed m hw hg d k s5 hI5 hx5 (fun e s' he hI' => herr g e s' hg (by rw [hone]; exact he) hI')
        (fun s' d' hd hI' hl' hx' => hk s' g d' hg (by rw [hone]; exact hd) hI'
          ((((((hl0.trans hl1).trans hl2).trans hl3).trans hl4).trans hl5).trans hl') hx')

theorem safe_later (m : Mode E works sh Q) {p : Nat} {w : Work} (hw : works[p]? = some w) (c : C) (hc : E.shape c = sh) (d : D)
    (k : D → D → Part R K B) (s0 : Obj R K) (hI : m.Inv s0) (hgerr : ∀ e s, prepareGrid w sh = .error e → m.Inv s → Q (.error e) s)
    (herr : ∀ g e s, prepareGrid w sh = .ok g → otherPass E w g sh c d = .error e → m.Inv s → Q (.error e) s)
    (hk : ∀ s g d0 d1, prepareGrid w sh = .ok g → otherPass E w g sh c d = .ok (d0, d1) → m.Inv s → LeAll s0 s → (s p).ixGrid.isSome →
      Safe m.rely m.guar Q (k d0 d1) s) :
    Safe m.rely m.guar Q (later E w p c d k) s0 := by
  unfold later
  rw [hc]
  refine safe_withGrid m p w hw _ s0 hI hgerr fun s g hg hI hl0 hx => ?_
  refine safe_read m _ _ _ _ hI fun s1 hI1 hl1 => Or.inr ⟨_, (reads m hw hg hI1 (hl1.ix p hx)).1, ?_⟩
  have hx1 := hl1.ix p hx
  refine safe_iy m hw hg _ _ hI1 hx1 fun s2 hI2 hl2 => ?_
  have hx2 := hl2.ix p hx1
  refine safe_read m _ _ _ _ hI2 fun s3 hI3 hl3 => Or.inr ⟨_, (reads m hw hg hI3 (hl3.ix p hx2)).2.1, ?_⟩
  have hx3 := hl3.ix p hx2
  refine safe_read m _ _ _ _ hI3 fun s4 hI4 hl4 => Or.inr ⟨_, (reads m hw hg hI4 (hl4.ix p hx3)).2.2.1, ?_⟩
  have hx4 := hl4.ix p hx3
  simp only [zip_points]
  have hone : otherPass E w g sh c d = match E.interp w g d with
      | .error e => .error e
      | .ok d' => match E.laterWindows w g.points sh (E.npad w) c d' with
        | .error e => .error e
        | .ok wins => match E.laterResult w g.points sh c d' (wins.map (corr E)) with
          | .error e => .error e
          | .ok x => match E.fix w g.ixvecs g.iyvecs x with
            | .error e => .error e
            | .ok x => .ok (d', x) := rfl
  cases hin : E.interp w g d with
  | error e =>
    have h' : E.interp w ⟨g.ixvecs, g.iyvecs, g.points⟩ d = .error e := hin
    simp only [h']
    exact herr g e _ hg (by rw [hone, hin]) hI4
  | ok d' =>
    have h' : E.interp w ⟨g.ixvecs, g.iyvecs, g.points⟩ d = .ok d' := hin
    simp only [h']
    rw [hin] at hone
    refine safe_npad m hw _ _ hI4 fun s5 hI5 hl5 hn5 => ?_
    have hx5 := hl5.ix p hx4
    refine safe_read m _ _ _ _ hI5 fun s6 hI6 hl6 => Or.inr ⟨_, (reads m hw hg hI6 (hl6.ix p hx5)).1, ?_⟩
    have hx6 := hl6.ix p hx5
    refine safe_iy m hw hg _ _ hI6 hx6 fun s7 hI7 hl7 => ?_
    have hx7 := hl7.ix p hx6
    refine safe_read m _ _ _ _ hI7 fun s8 hI8 hl8 => Or.inr ⟨_, (reads m hw hg hI8 (hl8.ix p hx7)).2.2.2.1, ?_⟩
    have hx8 := hl8.ix p hx7
    refine safe_read m _ _ _ _ hI8 fun s9 hI9 hl9 =>
      Or.inr ⟨_, npad_read m hw hI9 ((((hl6.trans hl7).trans hl8).trans hl9 p).2.2.2.2.2 hn5), ?_⟩
    have hx9 := hl9.ix p hx8
    simp only [zip_points]
    cases hwin : E.laterWindows w g.points sh (E.npad w) c d' with
    | error e => exact herr g e _ hg (by rw [hone]; simp only [hwin]) hI9
    | ok wins =>
      simp only [hwin] at hone
      refine m.loop s9 p w wins _ hw hI9 fun s10 hI10 hl10 => ?_
      have hx10 := hl10.ix p hx9
      cases hres : E.laterResult w g.points sh c d' (wins.map (corr E)) with
      | error e => exact herr g e _ hg (by rw [hone]; simp only [hres]) hI10
      | ok x =>
        simp only [hres] at hone
        exact safe_fixed m hw hg x _ s10 hI10 hx10 (fun e s' he hI' => herr g e s' hg (by rw [hone]; simp only [he]) hI')
          (fun s' x' hd hI' hl' hx' => hk s' g d' x' hg (by rw [hone]; simp only [hd]) hI'
            (((((((((((hl0.trans hl1).trans hl2).trans hl3).trans hl4).trans hl5).trans hl6).trans hl7).trans hl8).trans hl9).trans
              hl10).trans hl') hx')

end

section
variable {E : Env C D R K M} {works : List Work} {sh : Nat × Nat} {Q : Except PyErr (List D) → Obj R K → Prop}

/-- `acc` before the results of the following passes. -/
def after (acc : List D) : Except PyErr (List D) → Except PyErr (List D)
  | .error e => .error e
  | .ok ds => .ok (acc ++ ds)

/-- The object after the computation of its grid. -/
def known (w : Work) (sh : Nat × Nat) (g : Grid) : Work := { w with memo := some (sh, g) }

theorem known_fresh (w : Work) (sh : Nat × Nat) (g : Grid) (hw : w.memo = none) : (known w sh g).fresh = w := by
  cases w; simp only [known, Work.fresh] at *; rw [hw]

theorem grid_known (w : Work) (sh : Nat × Nat) (hw : w.memo = none) : w.grid sh = match prepareGrid w sh with
    | .error e => (w, .error e)
    | .ok g => (known w sh g, .ok (sh, g)) := by
  unfold Work.grid known; simp only [hw]
  cases prepareGrid w sh <;> rfl

theorem laterPass_known (E : Env C D R K M) (w : Work) (c : C) (d : D) (sh : Nat × Nat) (hc : E.shape c = sh) (hw : w.memo = none) :
    Multipass.laterPass (passesOf E) w c d = match prepareGrid w sh with
      | .error e => (w, .error e)
      | .ok g => (known w sh g, otherPass E w g sh c d) := by
  unfold Multipass.laterPass
  have : (passesOf E).shape c = sh := hc
  rw [this, grid_known w sh hw]
  cases hg : prepareGrid w sh with
  | error e => rfl
  | ok g =>
    simp only [known_fresh w sh g hw]
    show (match otherPass E w g sh c d with
      | .error e => (known w sh g, .error e)
      | .ok (d, d') => (known w sh g, .ok (d, d')) : Work × Except PyErr (D × D)) = _
    cases otherPass E w g sh c d with
    | error e => rfl
    | ok x => rfl

theorem safe_laters (m : Mode E works sh Q) (hfresh : ∀ w ∈ works, w.memo = none) (c : C) (hc : E.shape c = sh) :
    ∀ (ws : List Work) (p : Nat) (last : Work) (g : Grid) (d : D) (acc : List D) (s : Obj R K), works.drop p = last :: ws →
      prepareGrid last sh = .ok g → m.Inv s → (∀ q ≤ p, (s q).ixGrid.isSome) →
      (∀ s', m.Inv s' → ((∃ ds, (Multipass.laterPasses (passesOf E) c (known last sh g) d ws).2 = .ok ds) →
          ∀ q ≤ p + ws.length, (s' q).ixGrid.isSome) →
        Q (after acc (Multipass.laterPasses (passesOf E) c (known last sh g) d ws).2) s') →
      Safe m.rely m.guar Q (laters E c p last d acc ws) s := by
  intro ws
  induction ws with
  | nil =>
    intro p last g d acc s hd hg hI hxs hQ
    have hx := hxs p (le_refl p)
    have hw : works[p]? = some last := by
      have h := congrArg (fun l => l[0]?) hd
      simpa [List.getElem?_drop] using h
    have hmem : last.memo = none := hfresh last (List.mem_of_getElem? hw)
    unfold laters finish
    refine safe_read m _ _ _ _ hI fun s1 hI1 hl1 => Or.inr ⟨_, (reads m hw hg hI1 (hl1.ix p hx)).1, ?_⟩
    have hx1 := hl1.ix p hx
    refine safe_iy m hw hg _ _ hI1 hx1 fun s2 hI2 hl2 => ?_
    have hx2 := hl2.ix p hx1
    refine safe_read m _ _ _ _ hI2 fun s3 hI3 hl3 => Or.inr ⟨_, (reads m hw hg hI3 (hl3.ix p hx2)).2.1, ?_⟩
    have hx3 := hl3.ix p hx2
    refine safe_read m _ _ _ _ hI3 fun s4 hI4 hl4 => Or.inr ⟨_, (reads m hw hg hI4 (hl4.ix p hx3)).2.2.1, ?_⟩
    simp only [zip_points]
    have hfin : (Multipass.laterPasses (passesOf E) c (known last sh g) d []).2 = match E.final last g d with
        | .done d => .ok [d]
        | .interpError d => .ok [d]
        | .raised e => .error e := by
      show (match Multipass.finish (passesOf E) (known last sh g) d with
        | .error e => .error e
        | .ok d => .ok [d] : Except PyErr (List D)) = _
      have : Multipass.finish (passesOf E) (known last sh g) d = match E.final last g d with
          | .done d => .ok d
          | .interpError d => .ok d
          | .raised e => .error e := by
        show (match E.final (known last sh g).fresh g d with
          | .done d => .ok d
          | .interpError d => .ok d
          | .raised e => .error e : Except PyErr D) = _
        rw [known_fresh last sh g hmem]
      rw [this]
      cases E.final last g d <;> rfl
    have hlast := hQ s4 hI4 (fun _ q hq => ((((hl1.trans hl2).trans hl3).trans hl4).ix q) (hxs q (by simpa using hq)))
    rw [hfin] at hlast
    show Safe m.rely m.guar Q (match E.final last g d with
      | .done d => .done (.ok (acc ++ [d]))
      | .interpError d => .done (.ok (acc ++ [d]))
      | .raised e => .done (.error e)) s4
    cases hf : E.final last g d with
    | done d => rw [hf] at hlast; exact hlast
    | interpError d => rw [hf] at hlast; exact hlast
    | raised e => rw [hf] at hlast; exact hlast
  | cons w ws ih =>
    intro p last g d acc s hd hg hI hxs hQ
    have hd' : works.drop (p + 1) = w :: ws := by
      have h := congrArg List.tail hd
      simpa [List.tail_drop] using h
    have hw : works[p + 1]? = some w := by
      have h := congrArg (fun l => l[0]?) hd'
      simpa [List.getElem?_drop] using h
    have hmem : w.memo = none := hfresh w (List.mem_of_getElem? hw)
    unfold laters
    have hval : (Multipass.laterPasses (passesOf E) c (known last sh g) d (w :: ws)).2 = match prepareGrid w sh with
        | .error e => .error e
        | .ok g => match otherPass E w g sh c d with
          | .error e => .error e
          | .ok (d0, d1) => match (Multipass.laterPasses (passesOf E) c (known w sh g) d1 ws).2 with
            | .error e => .error e
            | .ok ds => .ok (d0 :: ds) := by
      show (match Multipass.laterPass (passesOf E) w c d with
        | (w, .error e) => (w :: ws, .error e)
        | (w, .ok (d, d')) => match Multipass.laterPasses (passesOf E) c w d' ws with
          | (ws, .error e) => (w :: ws, .error e)
          | (ws, .ok ds) => (w :: ws, .ok (d :: ds)) : List Work × Except PyErr (List D)).2 = _
      rw [laterPass_known E w c d sh hc hmem]
      cases prepareGrid w sh with
      | error e => rfl
      | ok g' =>
        simp only
        cases otherPass E w g' sh c d with
        | error e => rfl
        | ok x =>
          obtain ⟨d0, d1⟩ := x
          simp only
          rcases Multipass.laterPasses (passesOf E) c (known w sh g') d1 ws with ⟨ws', r⟩
          cases r <;> rfl
    rw [hval] at hQ
    refine safe_later m hw c hc d _ s hI ?_ ?_ ?_
    · intro e s' he hI'; simp only [he] at hQ; exact hQ s' hI' (fun ⟨_, h⟩ => by cases h)
    · intro g' e s' hg' he hI'; simp only [hg', he] at hQ; exact hQ s' hI' (fun ⟨_, h⟩ => by cases h)
    · intro s' g' d0 d1 hg' hp hI' hl' hx'
      simp only [hg', hp] at hQ
      refine ih (p + 1) w g' d1 (acc ++ [d0]) s' hd' hg' hI' ?_ ?_
      · intro q hq
        rcases Nat.lt_or_ge q (p + 1) with h | h
        · exact hl'.ix q (hxs q (by omega))
        · have : q = p + 1 := by omega
          subst this; exact hx'
      · revert hQ
        cases (Multipass.laterPasses (passesOf E) c (known w sh g') d1 ws).2 with
        | error e => intro hQ s' hI' _; exact hQ s' hI' (fun ⟨_, h⟩ => by cases h)
        | ok ds =>
          intro hQ s' hI' h
          have := hQ s' hI' (fun _ q hq => h ⟨ds, rfl⟩ q (by simp only [List.length_cons] at hq; omega))
          simpa [after] using this

theorem safe_calcul (m : Mode E works sh Q) (hfresh : ∀ w ∈ works, w.memo = none) (c : C)
    (hc : ∀ c', E.mask c = .ok c' → E.shape c' = sh) (s : Obj R K) (hI : m.Inv s)
    (hQ : ∀ s, m.Inv s → ((∃ ds, (Multipass.calcul (passesOf E) c works).2 = .ok ds) →
        ∀ q < works.length, (s q).ixGrid.isSome) → Q (Multipass.calcul (passesOf E) c works).2 s)
    (l : List Work) (hwk : works = l) : Safe m.rely m.guar Q (calcul E c l) s := by
  cases l with
  | nil =>
    have := hQ s hI (fun ⟨_, h⟩ => by rw [hwk] at h; cases h)
    rw [hwk] at this; exact this
  | cons w ws =>
    have hmem : w.memo = none := hfresh w (by rw [hwk]; exact List.mem_cons_self)
    have hw0 : works[0]? = some w := by rw [hwk]; rfl
    have hmask : (passesOf E).mask c = E.mask c := rfl
    have hval : (Multipass.calcul (passesOf E) c works).2 = match E.mask c with
        | .error e => .error e
        | .ok c' => match prepareGrid w sh with
          | .error e => .error e
          | .ok g => match onePass E w g c' with
            | .error e => .error e
            | .ok d => (Multipass.laterPasses (passesOf E) c' (known w sh g) d ws).2 := by
      rw [hwk]
      show (match Multipass.firstPass (passesOf E) w c with
        | (w, .error e) => (w :: ws, .error e)
        | (w, .ok (c, d)) => match Multipass.laterPasses (passesOf E) c w d ws with
          | (ws, .error e) => (w :: ws, .error e)
          | (ws, .ok ds) => (w :: ws, .ok ds) : List Work × Except PyErr (List D)).2 = _
      unfold Multipass.firstPass
      rw [hmask]
      cases hm : E.mask c with
      | error e => rfl
      | ok c' =>
        have : (passesOf E).shape c' = sh := hc c' hm
        simp only [this, grid_known w sh hmem]
        cases prepareGrid w sh with
        | error e => rfl
        | ok g =>
          simp only [known_fresh w sh g hmem]
          show (match (match onePass E w g c' with
              | .error e => (known w sh g, .error e)
              | .ok d => (known w sh g, .ok (c', d)) : Work × Except PyErr (C × D)) with
            | (w, .error e) => (w :: ws, .error e)
            | (w, .ok (c, d)) => match Multipass.laterPasses (passesOf E) c w d ws with
              | (ws, .error e) => (w :: ws, .error e)
              | (ws, .ok ds) => (w :: ws, .ok ds) : List Work × Except PyErr (List D)).2 = _
          cases onePass E w g c' with
          | error e => rfl
          | ok d =>
            simp only
            rcases Multipass.laterPasses (passesOf E) c' (known w sh g) d ws with ⟨ws', r⟩
            cases r <;> rfl
    rw [hval] at hQ
    show Safe m.rely m.guar Q (match E.mask c with
      | .error e => .done (.error e)
      | .ok c => first E w 0 c fun d => laters E c 0 w d [] ws) s
    cases hm : E.mask c with
    | error e => simp only [hm] at hQ; exact hQ s hI (fun ⟨_, h⟩ => by cases h)
    | ok c' =>
      simp only [hm] at hQ ⊢
      refine safe_first m hw0 c' (hc c' hm) _ s hI ?_ ?_ ?_
      · intro e s' he hI'; simp only [he] at hQ; exact hQ s' hI' (fun ⟨_, h⟩ => by cases h)
      · intro g e s' hg he hI'; simp only [hg, he] at hQ; exact hQ s' hI' (fun ⟨_, h⟩ => by cases h)
      · intro s' g d hg hp hI' _ hx'
        simp only [hg, hp] at hQ
        refine safe_laters m hfresh c' (hc c' hm) ws 0 w g d [] s' (by rw [hwk]; rfl) hg hI' ?_ ?_
        · intro q hq
          have : q = 0 := by omega
          subst this; exact hx'
        · intro s'' hI'' h
          have := hQ s'' hI'' (fun hex q hq => h hex q (by rw [hwk, List.length_cons] at hq; omega))
          revert this
          cases (Multipass.laterPasses (passesOf E) c' (known w sh g) d ws).2 with
          | error e => exact id
          | ok ds => exact id

end
/-! ## Alone -/

section
variable (E : Env C D R K M) (works : List Work) (sh : Nat × Nat)

theorem okAt_npad {w : Work} {a : Attrs R K} (h : OkAt E w sh a) : OkAt E w sh { a with npad := some (E.npad w) } :=
  ⟨fun _ hn => (Option.some.inj hn).symm, h.2⟩

theorem okAt_imshape {w : Work} {a : Attrs R K} (h : OkAt E w sh a) : OkAt E w sh { a with imshape := some sh } :=
  ⟨h.1, fun _ hv => (Option.some.inj hv).symm, h.2.2.1, h.2.2.2.1, h.2.2.2.2.1, h.2.2.2.2.2.1,
    fun hx => ⟨rfl, (h.2.2.2.2.2.2 hx).2⟩⟩

theorem okAt_ixvecs {w : Work} {a : Attrs R K} {g : Grid} (hg : prepareGrid w sh = .ok g) (h : OkAt E w sh a) :
    OkAt E w sh { a with ixvecs := some g.ixvecs } :=
  ⟨h.1, h.2.1, fun _ hv => ⟨g, hg, (Option.some.inj hv).symm⟩, h.2.2.2.1, h.2.2.2.2.1, h.2.2.2.2.2.1,
    fun hx => ⟨(h.2.2.2.2.2.2 hx).1, rfl, (h.2.2.2.2.2.2 hx).2.2⟩⟩

theorem okAt_iyvecs {w : Work} {a : Attrs R K} {g : Grid} (hg : prepareGrid w sh = .ok g) (h : OkAt E w sh a) :
    OkAt E w sh { a with iyvecs := some g.iyvecs } :=
  ⟨h.1, h.2.1, h.2.2.1, fun _ hv => ⟨g, hg, (Option.some.inj hv).symm⟩, h.2.2.2.2.1, h.2.2.2.2.2.1,
    fun hx => ⟨(h.2.2.2.2.2.2 hx).1, (h.2.2.2.2.2.2 hx).2.1, rfl⟩⟩

theorem okAt_ixGrid {w : Work} {a : Attrs R K} {g : Grid} (hg : prepareGrid w sh = .ok g) (h : OkAt E w sh a)
    (h1 : a.imshape.isSome) (h2 : a.ixvecs.isSome) (h3 : a.iyvecs.isSome) :
    OkAt E w sh { a with ixGrid := some (g.points.map Prod.fst) } :=
  ⟨h.1, h.2.1, h.2.2.1, h.2.2.2.1, fun _ hv => ⟨g, hg, (Option.some.inj hv).symm⟩, h.2.2.2.2.2.1, fun _ => ⟨h1, h2, h3⟩⟩

theorem okAt_iyGrid {w : Work} {a : Attrs R K} {g : Grid} (hg : prepareGrid w sh = .ok g) (h : OkAt E w sh a) :
    OkAt E w sh { a with iyGrid := some (g.points.map Prod.snd) } :=
  ⟨h.1, h.2.1, h.2.2.1, h.2.2.2.1, h.2.2.2.2.1, fun _ hv => ⟨g, hg, (Option.some.inj hv).symm⟩, h.2.2.2.2.2.2⟩

/-- Between two computations. -/
def AtRest (s : Obj R K) : Prop :=
  Ok E works sh s ∧ ∀ p w, works[p]? = some w → (s p).ixGrid.isSome → (s p).iyGrid.isSome

theorem atRest_update {s : Obj R K} (h : AtRest E works sh s) (p : Nat) (w : Work) (hw : works[p]? = some w) (a : Attrs R K)
    (ha : OkAt E w sh a) (hy : a.ixGrid.isSome → a.iyGrid.isSome) : AtRest E works sh (Function.update s p a) := by
  refine ⟨ok_update h.1 p w hw a ha, ?_⟩
  intro q v hv
  by_cases hq : q = p
  · subst hq; simpa using hy
  · rw [Function.update_of_ne hq]; exact h.2 q v hv

theorem atRest_new (x : R) (y : K) : AtRest E works sh (newObj x y) := by
  refine ⟨fun p w _ => ⟨?_, ?_, ?_, ?_, ?_, ?_, ?_⟩, ?_⟩ <;> intros <;> rename_i h <;> cases h

theorem loop_numpy (hlib : E.lib = .numpy) (p : Nat) : ∀ (wins : List (R × R)) (k : List M → Part R K B),
    loop E p wins k = k (wins.map (corr E)) := by
  intro wins
  induction wins with
  | nil => intro k; rfl
  | cons w ws ih =>
    intro k
    unfold loop correl fft ifft
    simp only [hlib, ih, List.map_cons]
    rfl

/-- Only the buffers change. -/
def Buf (p : Nat) (s s' : Obj R K) : Prop := ∃ x y, s' = Function.update s p { s p with arrayX := x, arrayK := y }

theorem buf_trans {p : Nat} {a b c : Obj R K} (h : Buf p a b) (h' : Buf p b c) : Buf p a c := by
  obtain ⟨x, y, rfl⟩ := h
  obtain ⟨x', y', rfl⟩ := h'
  exact ⟨x', y', by simp⟩

theorem buf_rest {p : Nat} {s s' : Obj R K} {w : Work} (hw : works[p]? = some w) (h : Buf p s s') (hI : AtRest E works sh s) :
    AtRest E works sh s' ∧ LeAll s s' := by
  obtain ⟨x, y, rfl⟩ := h
  exact ⟨atRest_update E works sh hI p w hw _ (hI.1 p w hw) (hI.2 p w hw), le_update s p _ (Le.refl (s p))⟩

theorem fft_alone {Q : Except PyErr B → Obj R K → Prop} (hlib : E.lib = .fftw) (p : Nat) (x : R) (k : K → Part R K B) (s : Obj R K)
    (hk : ∀ s', Buf p s s' → Safe Eq (fun _ _ => True) Q (k (E.forward x)) s') :
    Safe Eq (fun _ _ => True) Q (fft E p x k) s := by
  unfold fft
  rw [hlib]
  rintro _ rfl
  refine ⟨trivial, ?_⟩
  rintro _ rfl
  refine ⟨trivial, ?_⟩
  rintro _ rfl
  refine ⟨trivial, ?_⟩
  simp only [Function.update_self, Function.update_idem, id]
  exact hk _ ⟨x, E.forward x, rfl⟩

theorem ifft_alone {Q : Except PyErr B → Obj R K → Prop} (hlib : E.lib = .fftw) (p : Nat) (y : K) (k : R → Part R K B) (s : Obj R K)
    (hk : ∀ s', Buf p s s' → Safe Eq (fun _ _ => True) Q (k (E.backward y)) s') :
    Safe Eq (fun _ _ => True) Q (ifft E p y k) s := by
  unfold ifft
  rw [hlib]
  rintro _ rfl
  refine ⟨trivial, ?_⟩
  rintro _ rfl
  refine ⟨trivial, ?_⟩
  rintro _ rfl
  refine ⟨trivial, ?_⟩
  simp only [Function.update_self, Function.update_idem, id]
  exact hk _ ⟨E.backward y, y, rfl⟩

theorem loop_alone {Q : Except PyErr B → Obj R K → Prop} (hlib : E.lib = .fftw) (p : Nat) :
    ∀ (wins : List (R × R)) (k : List M → Part R K B) (s : Obj R K),
      (∀ s', Buf p s s' → Safe Eq (fun _ _ => True) Q (k (wins.map (corr E))) s') →
      Safe Eq (fun _ _ => True) Q (loop E p wins k) s := by
  intro wins
  induction wins with
  | nil => intro k s hk; exact hk s ⟨(s p).arrayX, (s p).arrayK, by simp⟩
  | cons w ws ih =>
    intro k s hk
    unfold loop correl
    refine fft_alone E hlib p _ _ s fun s1 h1 => ?_
    refine fft_alone E hlib p _ _ s1 fun s2 h2 => ?_
    refine ifft_alone E hlib p _ _ s2 fun s3 h3 => ?_
    refine ih _ s3 fun s4 h4 => ?_
    exact hk s4 (buf_trans (buf_trans (buf_trans h1 h2) h3) h4)

/-- Nothing else uses the object. -/
def aloneMode (Q : Except PyErr B → Obj R K → Prop) : Mode E works sh Q where
  rely := Eq
  guar := fun _ _ => True
  Inv := AtRest E works sh
  ok := fun _ h => h.1
  stable := by rintro s _ rfl h; exact ⟨h, LeAll.refl s⟩
  same := fun _ _ => trivial
  npad := fun s p w hw h => ⟨atRest_update E works sh h p w hw _ (okAt_npad E sh (h.1 p w hw)) (h.2 p w hw), trivial⟩
  imshape := fun s p w hw h => ⟨atRest_update E works sh h p w hw _ (okAt_imshape E sh (h.1 p w hw)) (h.2 p w hw), trivial⟩
  grid := by
    intro s p w g k hw hg hI hx hk
    unfold prepare
    rw [hg]
    rintro _ rfl
    refine ⟨trivial, ?_⟩
    rintro _ rfl
    refine ⟨trivial, ?_⟩
    rintro _ rfl
    refine ⟨trivial, ?_⟩
    rintro _ rfl
    refine ⟨trivial, ?_⟩
    rintro _ rfl
    refine ⟨trivial, ?_⟩
    simp only [Function.update_self, Function.update_idem]
    refine hk _ (atRest_update E works sh hI p w hw _ ?_ (fun _ => rfl)) (le_update s p _ ?_) (by simp)
    · have h1 := okAt_imshape E sh (hI.1 p w hw)
      have h2 := okAt_iyvecs E sh hg (okAt_ixvecs E sh hg h1)
      exact okAt_iyGrid E sh hg (okAt_ixGrid E sh hg h2 rfl rfl rfl)
    · exact ⟨fun _ => rfl, fun _ => rfl, fun _ => rfl, fun _ => rfl, fun _ => rfl, id⟩
  iy := Or.inr fun s p w hw h => h.2 p w hw
  loop := by
    intro s p w wins k hw hI hk
    cases hlib : E.lib with
    | numpy => rw [loop_numpy E hlib]; exact hk s hI (LeAll.refl s)
    | fftw =>
      refine loop_alone E hlib p wins k s fun s' hb => ?_
      obtain ⟨h1, h2⟩ := buf_rest E works sh hw hb hI
      exact hk s' h1 h2

theorem alone_calcul (hfresh : ∀ w ∈ works, w.memo = none) (c : C) (hc : ∀ c', E.mask c = .ok c' → E.shape c' = sh) (s : Obj R K)
    (hs : AtRest E works sh s) :
    ((calcul E c works).alone s).2 = (Multipass.calcul (passesOf E) c works).2 ∧
    AtRest E works sh ((calcul E c works).alone s).1 ∧
    ((∃ ds, (Multipass.calcul (passesOf E) c works).2 = .ok ds) →
      ∀ q < works.length, (((calcul E c works).alone s).1 q).ixGrid.isSome) := by
  exact alone_safe (Q := fun b s' => b = (Multipass.calcul (passesOf E) c works).2 ∧ AtRest E works sh s' ∧
      ((∃ ds, (Multipass.calcul (passesOf E) c works).2 = .ok ds) → ∀ q < works.length, (s' q).ixGrid.isSome)) _ s
    (safe_calcul (aloneMode E works sh _) hfresh c hc s hs (fun s' h h' => ⟨rfl, h, h'⟩) works rfl)

/-! ## With other threads -/

/-- The steps which keep an invariant and unset no attribute. -/
def Steps (I : Obj R K → Prop) (s s' : Obj R K) : Prop := I s → I s' ∧ LeAll s s'

theorem steps_refl (I : Obj R K → Prop) (s : Obj R K) : Steps I s s := fun h => ⟨h, LeAll.refl s⟩

theorem steps_trans (I : Obj R K → Prop) (a b c : Obj R K) (h : Steps I a b) (h' : Steps I b c) : Steps I a c := by
  intro ha
  obtain ⟨hb, h1⟩ := h ha
  obtain ⟨hc, h2⟩ := h' hb
  exact ⟨hc, h1.trans h2⟩

theorem safe_write {Q : Except PyErr B → Obj R K → Prop} {p : Nat} {w : Work} (hw : works[p]? = some w) (f : Attrs R K → Attrs R K)
    (k : Part R K B) (s0 : Obj R K) (hI : Ok E works sh s0)
    (hk : ∀ s, Ok E works sh s → LeAll s0 s → OkAt E w sh (f (s p)) ∧ Le (s p) (f (s p)) ∧
      ∀ s', Ok E works sh s' → LeAll s0 s' → s' p = f (s p) →
        Safe (Steps (Ok E works sh)) (Steps (Ok E works sh)) Q k s') :
    Safe (Steps (Ok E works sh)) (Steps (Ok E works sh)) Q (write p f k) s0 := by
  intro s hs
  obtain ⟨hI', hle⟩ := hs hI
  obtain ⟨h1, h2, h3⟩ := hk s hI' hle
  have h4 := ok_update hI' p w hw _ h1
  have h5 := le_update s p _ h2
  exact ⟨fun _ => ⟨h4, h5⟩, h3 _ h4 (hle.trans h5) (by simp)⟩

/-- Other threads can compute the grid. -/
def newMode (hlib : E.lib = .numpy) (Q : Except PyErr B → Prop) (hQ : Q (.error .attributeError)) :
    Mode E works sh (fun b _ => Q b) where
  rely := Steps (Ok E works sh)
  guar := Steps (Ok E works sh)
  Inv := Ok E works sh
  ok := fun _ h => h
  stable := fun s s' h => h
  same := fun s _ => steps_refl _ s
  npad := fun s p w hw h =>
    have h1 := ok_update h p w hw _ (okAt_npad E sh (h p w hw))
    ⟨h1, fun _ => ⟨h1, le_update s p _ ⟨id, id, id, id, id, fun _ => rfl⟩⟩⟩
  imshape := fun s p w hw h =>
    have h1 := ok_update h p w hw _ (okAt_imshape E sh (h p w hw))
    ⟨h1, fun _ => ⟨h1, le_update s p _ ⟨fun _ => rfl, id, id, id, id, id⟩⟩⟩
  grid := by
    intro s p w g k hw hg hI hx hk
    unfold prepare
    rw [hg]
    refine safe_write E works sh hw _ _ _ hI fun s1 hI1 hl1 =>
      ⟨okAt_imshape E sh (hI1 p w hw), ⟨fun _ => rfl, id, id, id, id, id⟩, fun t1 hT1 hL1 e1 => ?_⟩
    have a1 : (t1 p).imshape.isSome := by rw [e1]; rfl
    refine safe_write E works sh hw _ _ _ hT1 fun s2 hI2 hl2 =>
      ⟨okAt_ixvecs E sh hg (hI2 p w hw), ⟨id, fun _ => rfl, id, id, id, id⟩, fun t2 hT2 hL2 e2 => ?_⟩
    have b1 : (t2 p).imshape.isSome := (hL2 p).1 a1
    have b2 : (t2 p).ixvecs.isSome := by rw [e2]; rfl
    refine safe_write E works sh hw _ _ _ hT2 fun s3 hI3 hl3 =>
      ⟨okAt_iyvecs E sh hg (hI3 p w hw), ⟨id, id, fun _ => rfl, id, id, id⟩, fun t3 hT3 hL3 e3 => ?_⟩
    have c1 : (t3 p).imshape.isSome := (hL3 p).1 b1
    have c2 : (t3 p).ixvecs.isSome := (hL3 p).2.1 b2
    have c3 : (t3 p).iyvecs.isSome := by rw [e3]; rfl
    refine safe_write E works sh hw _ _ _ hT3 fun s4 hI4 hl4 =>
      ⟨okAt_ixGrid E sh hg (hI4 p w hw) ((hl4 p).1 c1) ((hl4 p).2.1 c2) ((hl4 p).2.2.1 c3), ⟨id, id, id, fun _ => rfl, id, id⟩,
        fun t4 hT4 hL4 e4 => ?_⟩
    have d1 : (t4 p).ixGrid.isSome := by rw [e4]; rfl
    refine safe_write E works sh hw _ _ _ hT4 fun s5 hI5 hl5 =>
      ⟨okAt_iyGrid E sh hg (hI5 p w hw), ⟨id, id, id, id, fun _ => rfl, id⟩, fun t5 hT5 hL5 e5 => ?_⟩
    exact hk t5 hT5 ((((hL1.trans hL2).trans hL3).trans hL4).trans hL5) (hL5.ix p d1)
  iy := Or.inl fun _ _ => hQ
  loop := fun s p w wins k hw hI hk => by rw [loop_numpy E hlib]; exact hk s hI (LeAll.refl s)

/-- All the grids are computed. -/
def Prepared (s : Obj R K) : Prop :=
  Ok E works sh s ∧ ∀ p w, works[p]? = some w → (s p).ixGrid.isSome ∧ (s p).iyGrid.isSome

theorem prepared_update {s : Obj R K} (h : Prepared E works sh s) (p : Nat) (w : Work) (hw : works[p]? = some w) (a : Attrs R K)
    (ha : OkAt E w sh a) (hle : Le (s p) a) : Prepared E works sh (Function.update s p a) := by
  refine ⟨ok_update h.1 p w hw a ha, ?_⟩
  intro q v hv
  by_cases hq : q = p
  · subst hq
    rw [Function.update_self]
    exact ⟨hle.2.2.2.1 (h.2 q v hv).1, hle.2.2.2.2.1 (h.2 q v hv).2⟩
  · rw [Function.update_of_ne hq]; exact h.2 q v hv

def preparedMode (hlib : E.lib = .numpy) (Q : Except PyErr B → Prop) : Mode E works sh (fun b _ => Q b) where
  rely := Steps (Prepared E works sh)
  guar := Steps (Prepared E works sh)
  Inv := Prepared E works sh
  ok := fun _ h => h.1
  stable := fun s s' h => h
  same := fun s _ => steps_refl _ s
  npad := fun s p w hw h =>
    have hle : Le (s p) { s p with npad := some (E.npad w) } := ⟨id, id, id, id, id, fun _ => rfl⟩
    have h1 := prepared_update E works sh h p w hw _ (okAt_npad E sh (h.1 p w hw)) hle
    ⟨h1, fun _ => ⟨h1, le_update s p _ hle⟩⟩
  imshape := fun s p w hw h =>
    have hle : Le (s p) { s p with imshape := some sh } := ⟨fun _ => rfl, id, id, id, id, id⟩
    have h1 := prepared_update E works sh h p w hw _ (okAt_imshape E sh (h.1 p w hw)) hle
    ⟨h1, fun _ => ⟨h1, le_update s p _ hle⟩⟩
  grid := by
    intro s p w g k hw hg hI hx hk
    have := (hI.2 p w hw).1
    rw [hx] at this; cases this
  iy := Or.inr fun s p w hw h _ => (h.2 p w hw).2
  loop := fun s p w wins k hw hI hk => by rw [loop_numpy E hlib]; exact hk s hI (LeAll.refl s)

end

/-! ## Specification -/

/-- What `calcul` returns for a couple, alone and with an object which has just been built (`x`, `y`: what is in the buffers). -/
def right (E : Env C D R K M) (works : List Work) (x : R) (y : K) (c : C) : Except PyErr (List D) :=
  ((calcul E c works).alone (newObj x y)).2

/-- The object after the computation of some couples one after the other. -/
def used (E : Env C D R K M) (works : List Work) (s : Obj R K) (cs : List C) : Obj R K :=
  cs.foldl (fun s c => ((calcul E c works).alone s).1) s

/-- All the couples have the same shape, after the mask. -/
def SameShape (E : Env C D R K M) (sh : Nat × Nat) (cs : List C) : Prop :=
  ∀ c ∈ cs, ∀ c', E.mask c = .ok c' → E.shape c' = sh

end Threads

open Threads
variable {C D R K M : Type}

theorem right_eq (E : Env C D R K M) (works : List Work) (hfresh : ∀ w ∈ works, w.memo = none) (x : R) (y : K) (c : C) :
    right E works x y c = (Multipass.calcul (passesOf E) c works).2 := by
  cases hm : E.mask c with
  | error e =>
    exact (alone_calcul E works (0, 0) hfresh c (fun c' h => by rw [hm] at h; cases h) _ (atRest_new E works _ x y)).1
  | ok c' =>
    exact (alone_calcul E works (E.shape c') hfresh c (fun c'' h => by rw [hm] at h; obtain rfl := Except.ok.inj h; rfl) _
      (atRest_new E works _ x y)).1

theorem used_rest (E : Env C D R K M) (works : List Work) (hfresh : ∀ w ∈ works, w.memo = none) (sh : Nat × Nat) :
    ∀ (cs : List C) (s : Obj R K), SameShape E sh cs → AtRest E works sh s → AtRest E works sh (used E works s cs) := by
  intro cs
  induction cs with
  | nil => intro s _ h; exact h
  | cons c cs ih =>
    intro s hsh h
    exact ih _ (fun d hd => hsh d (List.mem_cons_of_mem _ hd))
      (alone_calcul E works sh hfresh c (hsh c List.mem_cons_self) s h).2.1

/-- The computation alone is the one of the model of the passes (`Model/Multipass.lean`, C74, C75). -/
theorem C121_alone (E : Env C D R K M) (p : Multipass.Params) (works : List Work) (h : Multipass.build p = .ok works) (x : R) (y : K)
    (c : C) : right E works x y c = (Multipass.calcul (passesOf E) c works).2 :=
  right_eq E works ((build_fresh p works h).2.2) x y c

/-- One couple after the other, with fftw or numpy: the right results. -/
theorem C121_one_by_one (E : Env C D R K M) (p : Multipass.Params) (works : List Work) (h : Multipass.build p = .ok works) (x : R)
    (y : K) (sh : Nat × Nat) (before : List C) (c : C) (hsh : SameShape E sh (c :: before)) :
    ((calcul E c works).alone (used E works (newObj x y) before)).2 = right E works x y c := by
  have hfresh := (build_fresh p works h).2.2
  rw [right_eq E works hfresh]
  exact (alone_calcul E works sh hfresh c (hsh c List.mem_cons_self) _
    (used_rest E works hfresh sh before _ (fun d hd => hsh d (List.mem_cons_of_mem _ hd)) (atRest_new E works sh x y))).1

/-- Couples of the same shape in threads, with the FFT of numpy and an object which has just been built: for every schedule, a
thread which has ended has the right result or has raised `AttributeError`. -/
theorem C121_threads_partial (E : Env C D R K M) (hlib : E.lib = .numpy) (p : Multipass.Params) (works : List Work)
    (h : Multipass.build p = .ok works) (x : R) (y : K) (sh : Nat × Nat) (cs : List C) (hsh : SameShape E sh cs)
    (sched : List Nat) (i : Nat) (c : C) (hi : cs[i]? = some c) (b : Except PyErr (List D))
    (hb : (exec (newObj x y, cs.map fun c => calcul E c works) sched).2[i]? = some (.done b)) :
    b = right E works x y c ∨ b = .error .attributeError := by
  have hfresh := (build_fresh p works h).2.2
  have := exec_safe (steps_refl (Ok E works sh)) (steps_trans (Ok E works sh))
    (Q := fun i b => ∀ c, cs[i]? = some c → b = right E works x y c ∨ b = .error .attributeError) sched (newObj x y)
    (cs.map fun c => calcul E c works) ?_ i _ hb
  · exact this c hi
  · intro j q hq
    rw [List.getElem?_map] at hq
    cases hj : cs[j]? with
    | none => rw [hj] at hq; cases hq
    | some d =>
      rw [hj] at hq
      obtain rfl := Option.some.inj hq
      refine safe_calcul (newMode E works sh hlib (fun b => ∀ c, some d = some c → b = right E works x y c ∨
        b = .error .attributeError) (fun _ _ => Or.inr rfl)) hfresh d (hsh d (List.mem_of_getElem? hj)) _
        (atRest_new E works sh x y).1 ?_ works rfl
      intro s _ _ c hc
      obtain rfl := Option.some.inj hc
      exact Or.inl (right_eq E works hfresh x y _).symm

/-- If a first couple has been computed alone, without error, the couples of the same shape which are then computed in threads with the
FFT of numpy have the right results, for every schedule. -/
theorem C121_after_first_partial (E : Env C D R K M) (hlib : E.lib = .numpy) (p : Multipass.Params) (works : List Work)
    (h : Multipass.build p = .ok works) (x : R) (y : K) (sh : Nat × Nat) (c0 : C) (ds : List D)
    (h0 : right E works x y c0 = .ok ds) (cs : List C) (hsh : SameShape E sh (c0 :: cs))
    (sched : List Nat) (i : Nat) (c : C) (hi : cs[i]? = some c) (b : Except PyErr (List D))
    (hb : (exec (((calcul E c0 works).alone (newObj x y)).1, cs.map fun c => calcul E c works) sched).2[i]? = some (.done b)) :
    b = right E works x y c := by
  have hfresh := (build_fresh p works h).2.2
  obtain ⟨_, hrest, hall⟩ := alone_calcul E works sh hfresh c0 (hsh c0 List.mem_cons_self) _ (atRest_new E works sh x y)
  rw [right_eq E works hfresh] at h0
  have hprep : Prepared E works sh ((calcul E c0 works).alone (newObj x y)).1 := by
    refine ⟨hrest.1, fun q w hw => ?_⟩
    have hx := hall ⟨ds, h0⟩ q (List.getElem?_eq_some_iff.1 hw).1
    exact ⟨hx, hrest.2 q w hw hx⟩
  have := exec_safe (steps_refl (Prepared E works sh)) (steps_trans (Prepared E works sh))
    (Q := fun i b => ∀ c, cs[i]? = some c → b = right E works x y c) sched _
    (cs.map fun c => calcul E c works) ?_ i _ hb
  · exact this c hi
  · intro j q hq
    rw [List.getElem?_map] at hq
    cases hj : cs[j]? with
    | none => rw [hj] at hq; cases hq
    | some d =>
      rw [hj] at hq
      obtain rfl := Option.some.inj hq
      refine safe_calcul (preparedMode E works sh hlib (fun b => ∀ c, some d = some c → b = right E works x y c))
        hfresh d (hsh d (List.mem_cons_of_mem _ (List.mem_of_getElem? hj))) _ hprep ?_ works rfl
      intro s _ _ c hc
      obtain rfl := Option.some.inj hc
      exact (right_eq E works hfresh x y _).symm

/-- The property is false for every computation whose first grid can be computed, with fftw and with numpy: when the second thread starts
while the first one is between the two last lines of `_prepare_with_image`, it raises `AttributeError`. -/
theorem C121_grid_fails (E : Env C D R K M) (w : Work) (ws : List Work) (x : R) (y : K) (c0 c1 c0' c1' : C)
    (h0 : E.mask c0 = .ok c0') (h1 : E.mask c1 = .ok c1') (g : Grid) (hg : prepareGrid w (E.shape c0') = .ok g) :
    (exec (newObj x y, [c0, c1].map fun c => calcul E c (w :: ws)) [0, 0, 0, 0, 0, 1, 1, 1, 1, 1]).2[1]? =
      some (.done (.error .attributeError)) := by
  have e0 : calcul E c0 (w :: ws) = first E w 0 c0' fun d => laters E c0' 0 w d [] ws := by
    show (match E.mask c0 with
      | .error e => .done (.error e)
      | .ok c => first E w 0 c fun d => laters E c 0 w d [] ws : Part R K (List D)) = _
    rw [h0]
  have e1 : calcul E c1 (w :: ws) = first E w 0 c1' fun d => laters E c1' 0 w d [] ws := by
    show (match E.mask c1 with
      | .error e => .done (.error e)
      | .ok c => first E w 0 c fun d => laters E c 0 w d [] ws : Part R K (List D)) = _
    rw [h1]
  simp only [List.map_cons, List.map_nil, e0, e1]
  simp [exec, turn, first, withGrid, Threads.prepare, hg, newObj, write, Threads.read]

/-- The result of a computation in one pass when the correlations of the couple `c` are `ms`. -/
def withCorrelations (E : Env C D R K M) (w : Work) (g : Grid) (c : C) (ms : List M) : Except PyErr (List D) :=
  match E.firstResult w g.points c ms with
  | .error e => .error e
  | .ok d => match E.fix w g.ixvecs g.iyvecs d with
    | .error e => .error e
    | .ok d => match E.final w g d with
      | .done d => .ok [d]
      | .interpError d => .ok [d]
      | .raised e => .error e

/-- With one pass, the right result is the one with the correlations of the windows of the couple. -/
theorem C121_one_pass (E : Env C D R K M) (w : Work) (hw : w.memo = none) (x : R) (y : K) (c c' : C) (h : E.mask c = .ok c') (g : Grid)
    (hg : prepareGrid w (E.shape c') = .ok g) (wins : List (R × R)) (hwins : E.firstWindows w g.points (E.npad w) c' = .ok wins) :
    right E [w] x y c = withCorrelations E w g c' (wins.map (corr E)) := by
  rw [right_eq E [w] (by simpa using hw)]
  show (match Multipass.firstPass (passesOf E) w c with
    | (w, .error e) => ([w], .error e)
    | (w, .ok (c, d)) => match Multipass.laterPasses (passesOf E) c w d [] with
      | (ws, .error e) => (w :: ws, .error e)
      | (ws, .ok ds) => (w :: ws, .ok ds) : List Work × Except PyErr (List D)).2 = _
  unfold Multipass.firstPass
  have h1 : (passesOf E).mask c = .ok c' := h
  have h2 : (passesOf E).shape c' = E.shape c' := rfl
  have h3 : (passesOf E).first w g (E.shape c') c' = onePass E w g c' := rfl
  simp only [h1, h2, grid_known w _ hw, hg, known_fresh w _ g hw, h3]
  unfold onePass withCorrelations
  simp only [hwins]
  cases E.firstResult w g.points c' (wins.map (corr E)) with
  | error e => rfl
  | ok d =>
    simp only
    cases E.fix w g.ixvecs g.iyvecs d with
    | error e => rfl
    | ok d =>
      simp only
      show (match Multipass.laterPasses (passesOf E) c' (known w (E.shape c') g) d [] with
        | (ws, .error e) => (known w (E.shape c') g :: ws, .error e)
        | (ws, .ok ds) => (known w (E.shape c') g :: ws, .ok ds) : List Work × Except PyErr (List D)).2 = _
      have : Multipass.finish (passesOf E) (known w (E.shape c') g) d = match E.final w g d with
          | .done d => .ok d
          | .interpError d => .ok d
          | .raised e => .error e := by
        show (match E.final (known w (E.shape c') g).fresh g d with
          | .done d => .ok d
          | .interpError d => .ok d
          | .raised e => .error e : Except PyErr D) = _
        rw [known_fresh w _ g hw]
      simp only [Multipass.laterPasses, this]
      cases E.final w g d <;> rfl

theorem exec_append {S A : Type} (x : S × List (Prog S A)) (a b : List Nat) : exec x (a ++ b) = exec (exec x a) b := by
  simp [exec]

/-- Both threads get the correlations of the second one when each operation on the buffers of the first one is followed by the same
operation of the second one. -/
theorem lockstep {B : Type} (E : Env C D R K M) (hlib : E.lib = .fftw) (p : Nat) : ∀ (wins0 wins1 : List (R × R))
    (k0 k1 : List M → Part R K B) (s : Obj R K), wins0.length = wins1.length →
    ∃ sched s', Buf p s s' ∧ exec (s, [loop E p wins0 k0, loop E p wins1 k1]) sched =
      (s', [k0 (wins1.map (corr E)), k1 (wins1.map (corr E))]) := by
  intro wins0
  induction wins0 with
  | nil =>
    intro wins1 k0 k1 s h
    cases wins1 with
    | nil => exact ⟨[], s, ⟨(s p).arrayX, (s p).arrayK, by simp⟩, rfl⟩
    | cons a l => cases h
  | cons a wins0 ih =>
    intro wins1 k0 k1 s h
    cases wins1 with
    | nil => cases h
    | cons b wins1 =>
      have hone : ∃ s1, Buf p s s1 ∧ exec (s, [loop E p (a :: wins0) k0, loop E p (b :: wins1) k1])
          [0, 1, 0, 1, 0, 1, 0, 1, 0, 1, 0, 1, 0, 1, 0, 1, 0, 1] =
          (s1, [loop E p wins0 (fun ms => k0 (corr E b :: ms)), loop E p wins1 (fun ms => k1 (corr E b :: ms))]) := by
        obtain ⟨z, hz⟩ : ∃ z, E.prod (E.forward b.1) (E.forward b.2) = z := ⟨_, rfl⟩
        refine ⟨Function.update s p { s p with arrayX := E.backward z, arrayK := z }, ⟨_, _, rfl⟩, ?_⟩
        simp [exec, turn, loop, correl, fft, ifft, hlib, write, corr, hz]
      obtain ⟨s1, hb1, h1⟩ := hone
      obtain ⟨sched, s2, hb2, h2⟩ := ih wins1 (fun ms => k0 (corr E b :: ms)) (fun ms => k1 (corr E b :: ms)) s1
        (by simpa using h)
      refine ⟨[0, 1, 0, 1, 0, 1, 0, 1, 0, 1, 0, 1, 0, 1, 0, 1, 0, 1] ++ sched, s2, buf_trans hb1 hb2, ?_⟩
      rw [exec_append, h1, h2]
      rfl

/-- The property is false for every computation in one pass with fftw: two couples which have the same shape and as many windows can be
computed at the same time in such a way that the vectors of the first couple are computed with the correlations of the second one. -/
theorem C121_fftw_fails (E : Env C D R K M) (hlib : E.lib = .fftw) (w : Work) (x : R) (y : K) (c0 c1 c0' c1' : C)
    (h0 : E.mask c0 = .ok c0') (h1 : E.mask c1 = .ok c1') (g : Grid) (hg : prepareGrid w (E.shape c0') = .ok g)
    (wins0 wins1 : List (R × R)) (hw0 : E.firstWindows w g.points (E.npad w) c0' = .ok wins0)
    (hw1 : E.firstWindows w g.points (E.npad w) c1' = .ok wins1) (hlen : wins0.length = wins1.length) :
    ∃ sched, (exec (newObj x y, [c0, c1].map fun c => calcul E c [w]) sched).2[0]? =
      some (.done (withCorrelations E w g c0' (wins1.map (corr E)))) := by
  have e0 : calcul E c0 [w] = first E w 0 c0' fun d => laters E c0' 0 w d [] [] := by
    show (match E.mask c0 with
      | .error e => .done (.error e)
      | .ok c => first E w 0 c fun d => laters E c 0 w d [] [] : Part R K (List D)) = _
    rw [h0]
  have e1 : calcul E c1 [w] = first E w 0 c1' fun d => laters E c1' 0 w d [] [] := by
    show (match E.mask c1 with
      | .error e => .done (.error e)
      | .ok c => first E w 0 c fun d => laters E c 0 w d [] [] : Part R K (List D)) = _
    rw [h1]
  have hz := zip_points g.points
  let k (c' : C) : List M → Part R K (List D) := fun ms => match E.firstResult w g.points c' ms with
    | .error e => .done (.error e)
    | .ok d => fixed E w 0 d fun d => laters E c' 0 w d [] []
  have hbegin : ∃ s1, (s1 0).ixvecs = some g.ixvecs ∧ (s1 0).iyvecs = some g.iyvecs ∧
      (s1 0).ixGrid = some (g.points.map Prod.fst) ∧ (s1 0).iyGrid = some (g.points.map Prod.snd) ∧
      exec (newObj x y, [c0, c1].map fun c => calcul E c [w]) [0, 0, 0, 0, 0, 0, 0, 0, 0, 0, 1, 1, 1, 1, 1] =
        (s1, [loop E 0 wins0 (k c0'), loop E 0 wins1 (k c1')]) := by
    simp only [List.map_cons, List.map_nil, e0, e1]
    refine ⟨Function.update (newObj x y) 0 ⟨some (E.shape c0'), some g.ixvecs, some g.iyvecs, some (g.points.map Prod.fst),
      some (g.points.map Prod.snd), some (E.npad w), x, y⟩, ?_, ?_, ?_, ?_, ?_⟩
    · simp
    · simp
    · simp
    · simp
    · simp [exec, turn, first, withGrid, Threads.prepare, hg, newObj, write, Threads.read, hz, hw0, hw1, k]
      exact ⟨rfl, rfl⟩
  obtain ⟨s1, a1, a2, a3, a4, hs1⟩ := hbegin
  obtain ⟨sched, s2, ⟨x2, y2, rfl⟩, hs2⟩ := lockstep E hlib 0 wins0 wins1 (k c0') (k c1') s1 hlen
  refine ⟨[0, 0, 0, 0, 0, 0, 0, 0, 0, 0, 1, 1, 1, 1, 1] ++ (sched ++ [0, 0, 0, 0, 0, 0]), ?_⟩
  rw [exec_append, hs1, exec_append, hs2]
  unfold withCorrelations
  cases hr : E.firstResult w g.points c0' (wins1.map (corr E)) with
  | error e => simp [exec, turn, k, hr]
  | ok d =>
    cases hf : E.fix w g.ixvecs g.iyvecs d with
    | error e => simp [exec, turn, k, hr, fixed, Threads.read, a1, a2, hf]
    | ok d' =>
      cases hl : E.final w g d' <;>
        simp [exec, turn, k, hr, fixed, Threads.read, a1, a2, a3, a4, hf, laters, finish, hz, hl]

/-! ## Examples -/

/-- An example of computation: a couple is a number, the windows are taken at the points of the grid. -/
def demoEnv (lib : Lib) : Env Int (List Int) Int Int Int where
  lib := lib
  forward := fun x => 2 * x
  backward := fun y => y + 1
  prod := fun a b => a * b
  map := fun a b c => a + b + c
  mask := .ok
  shape := fun _ => (20, 20)
  npad := fun w => w.win0.1.toNat
  firstWindows := fun _ pts n c => .ok (pts.map fun q => (c + q.1 + n, c + q.2))
  firstResult := fun _ _ _ ms => .ok ms
  interp := fun _ _ d => .ok d
  laterWindows := fun _ pts _ n c d => .ok (pts.map fun q => (c + q.1 + n, c + q.2 + d.sum))
  laterResult := fun _ _ _ _ _ ms => .ok ms
  fix := fun _ _ _ d => .ok d
  final := fun _ _ d => .done d

/-- Two passes. -/
def demoParams : Multipass.Params := ⟨2, .int 2, .int 16, none, 0⟩

def demoWorks : List Work := [⟨0, (16, 16), (16, 16), 0, none⟩, ⟨1, (8, 8), (8, 8), 0, none⟩]

/-- What the threads have returned. -/
def outcomes {S A : Type} (ps : List (Prog S A)) : List (Option A) := ps.map fun
  | .done a => some a
  | .op _ _ => none

/-- The hypotheses of `C121_threads_partial`, with a schedule where the two threads take turns and end: both compute the grid and have
the right results, which are different. -/
example : Multipass.build demoParams = .ok demoWorks ∧ SameShape (demoEnv .numpy) (20, 20) [3, 50] ∧
    outcomes (exec (newObj 0 0, [3, 50].map fun c => calcul (demoEnv .numpy) c demoWorks)
      ((List.range 50).flatMap fun _ => [0, 1])).2 =
      [some (right (demoEnv .numpy) demoWorks 0 0 3), some (right (demoEnv .numpy) demoWorks 0 0 50)] ∧
    right (demoEnv .numpy) demoWorks 0 0 3 ≠ right (demoEnv .numpy) demoWorks 0 0 50 ∧
    (right (demoEnv .numpy) demoWorks 0 0 3).toOption.map (fun ds => ds.map List.length) = some [1, 9] := by
  refine ⟨by decide +kernel, fun c _ c' _ => rfl, ?_, ?_, ?_⟩ <;> decide +kernel

/-- The hypotheses of `C121_after_first_partial`: the same schedule, after the couple 7. -/
example : (right (demoEnv .numpy) demoWorks 0 0 7).toOption.isSome ∧
    outcomes (exec (((calcul (demoEnv .numpy) 7 demoWorks).alone (newObj 0 0)).1, [3, 50].map fun c => calcul (demoEnv .numpy) c
      demoWorks) ((List.range 50).flatMap fun _ => [0, 1])).2 =
      [some (right (demoEnv .numpy) demoWorks 0 0 3), some (right (demoEnv .numpy) demoWorks 0 0 50)] := by
  constructor <;> decide +kernel

/-- With fftw, the same schedule gives wrong results, whereas the couples one after the other have the right ones
(`C121_one_by_one`). -/
example : (outcomes (exec (((calcul (demoEnv .fftw) 7 demoWorks).alone (newObj 0 0)).1, [3, 50].map fun c => calcul (demoEnv .fftw) c
      demoWorks) ((List.range 100).flatMap fun _ => [0, 1])).2).head? ≠ some (some (right (demoEnv .fftw) demoWorks 0 0 3)) ∧
    ((calcul (demoEnv .fftw) 3 demoWorks).alone (used (demoEnv .fftw) demoWorks (newObj 0 0) [7, 50])).2 =
      right (demoEnv .numpy) demoWorks 0 0 3 := by
  constructor <;> decide +kernel

/-- The hypotheses of `C121_fftw_fails`, for the first pass, and what the first thread returns is not the right result. -/
example : ∃ g wins0 wins1, prepareGrid demoWorks[0] ((demoEnv .fftw).shape 3) = .ok g ∧
    (demoEnv .fftw).firstWindows demoWorks[0] g.points ((demoEnv .fftw).npad demoWorks[0]) 3 = .ok wins0 ∧
    (demoEnv .fftw).firstWindows demoWorks[0] g.points ((demoEnv .fftw).npad demoWorks[0]) 50 = .ok wins1 ∧
    wins0.length = wins1.length ∧
    withCorrelations (demoEnv .fftw) demoWorks[0] g 3 (wins1.map (corr (demoEnv .fftw))) ≠
      right (demoEnv .fftw) [demoWorks[0]] 0 0 3 := by
  refine ⟨(match prepareGrid demoWorks[0] (20, 20) with | .ok g => g | .error _ => ⟨[], [], []⟩), _, _, ?_, rfl, rfl, ?_, ?_⟩
  all_goals decide +kernel

end Verif
