import Verif.Model.ExampleTopology
import Verif.Exec.GroupLive
import Verif.Lemmas.Text
import Mathlib.Tactic.Ring

/-!
# The computation of the example topology (C146)

`/repo/src/fluidimage/topologies/example.py`: all the images of a directory are read, combined with themselves and
saved, with every executor and every schedule.
-/

namespace Verif
open Verif.Exec Verif.Spec

namespace ExampleTopology

/-! ## Specification -/

/-- Reading the image of this name: one name is refused on purpose by the topology. -/
def readable (imread : List Char → Except PyErr Image) (n : List Char) : Except PyErr Image :=
  if n = "Karman_03.bmp".toList then .error .valueError else imread n

/-- The image whose pixels are the pixels of `a` to the power `e`, in uint8. -/
def power (a : Image) (e : Nat) : Image := a.map (fun row => row.map (fun x => x ^ e % 256))

/-- The image is read once. -/
def readEvents (imread : List Char → Except PyErr Image) (k n : List Char) : List (Event (List Char) Val PyErr) :=
  match readable imread n with
  | .ok _ => [.call 0 k (.name n)]
  | .error e => [.call 0 k (.name n), .failed 0 k e]

/-- What happens after the reading: nothing but a message at the end for an image which could not be read; one key is
refused on purpose by the work "cpu1"; otherwise the image given to `savemat` is the image to the power
`(nloops + 1)²`. -/
def laterEvents (imread : List Char → Except PyErr Image) (savemat : List Char → Image → Except PyErr Unit)
    (nloops : Nat) (k n : List Char) : List (Event (List Char) Val PyErr) :=
  match readable imread n with
  | .error e => [.dropped 4 k e]
  | .ok a =>
    if k = "Karman_02_00".toList then
      [.call 2 k (.arrays k a a), .failed 2 k .valueError, .dropped 4 k .valueError]
    else
      let b := power a (nloops + 1)
      let c := power a ((nloops + 1) * (nloops + 1))
      [.call 2 k (.arrays k a a), .call 3 k (.arrays k b b), .call 4 k (.result k c)] ++
        (match savemat (k ++ ".h5".toList) c with
        | .ok _ => []
        | .error e => [.failed 4 k e])

/-- What has to happen during the computation, for the items (key, name). -/
structure Done (imread : List Char → Except PyErr Image) (savemat : List Char → Image → Except PyErr Unit)
    (nloops : Nat) (items : List (List Char × List Char)) (log : List (Event (List Char) Val PyErr)) : Prop where
  read : ∀ k n, (k, n) ∈ items → eventsOf (fun w => decide (w < 1)) k log = readEvents imread k n
  later : ∀ k n, (k, n) ∈ items → eventsOf (fun w => decide (1 ≤ w)) k log = laterEvents imread savemat nloops k n
  others : ∀ k, (∀ n, (k, n) ∉ items) → historyOf k log = []

/-! ## The function making couples is a loop on groups -/

/-- The names of a group, for the general theory. -/
def names (nameOf : List Char → List Char) : NameTuples (List Char) Val where
  tup := fun l => .couple (l.map fun k => (k, nameOf k))
  namesOf := fun v => match v with
    | .couple l => l.map Prod.fst
    | _ => []
  namesOf_tup := by intro l; simp [Function.comp_def]

/-- The value stored for a key. -/
def outOf (k : List Char) (r : Except PyErr Val) : Except PyErr Val :=
  match r with
  | .error e => .error e
  | .ok (.array a) => .ok (.arrays k a a)
  | .ok _ => .error .typeError

def build (k : List Char) (_ : List (List Char)) (rs : List (Except PyErr Val)) : Except PyErr (Except PyErr Val) :=
  match rs with
  | r :: _ => .ok (outOf k r)
  | [] => .ok (.error .typeError)

/-- The series for the general theory: each key is a group of one image. -/
def seriesOf (items : Dict (List Char) (List Char)) : List (List Char × List (List Char)) :=
  items.map (fun kv => (kv.1, [kv.1]))

def Single (N : NameTuples (List Char) Val) (s : GroupQueues (List Char) Val PyErr) : Prop :=
  ∀ kv ∈ s.groups, N.names kv.2 = [kv.1]

theorem used_key {nameOf} {s : GroupQueues (List Char) Val PyErr} {okNames}
    (hpre : MakePre (names nameOf) okNames s) (hg : Single (names nameOf) s) {k : List Char}
    (hk : k ∈ s.arrays.keys) : ∃ g, s.groups.get? k = some g := by
  obtain ⟨k', r', h1, h2⟩ := (isNameInValues_iff _ _ _).1 (hpre.used k hk)
  rw [hg _ h1, List.mem_singleton] at h2
  subst h2
  exact ⟨r', Dict.mem_get? _ hpre.groups _ _ h1⟩

theorem step_eq {nameOf} {s : GroupQueues (List Char) Val PyErr} {okNames}
    (hpre : MakePre (names nameOf) okNames s) (hg : Single (names nameOf) s) {k : List Char} {r g : Except PyErr Val}
    (hk : (k, r) ∈ s.arrays) (hgk : s.groups.get? k = some g) :
    gstep (names nameOf) build k g s = .ok (couplesStep k r s) := by
  have hr := Dict.mem_get? _ hpre.arrays _ _ hk
  have hn := hg _ (Dict.get?_mem _ _ _ hgk)
  unfold gstep couplesStep
  rw [hn, hgk]
  simp only [List.all_cons, List.all_nil, hr, Option.isSome_some, Bool.and_self, if_true, List.filterMap_cons,
    List.filterMap_nil, build]
  have ha : s.arrays.filter (fun kv => (names nameOf).isNameInValues (s.groups.erase k) kv.1) = s.arrays.erase k := by
    rw [Dict.erase_eq_filter _ _ hpre.arrays]
    apply List.filter_congr
    rintro ⟨k', v'⟩ hm
    have hkm : k' ∈ s.arrays.keys := (Dict.mem_keys_iff _ _).2 ⟨v', hm⟩
    by_cases he : k' = k
    · subst he
      simp only [ne_eq, not_true_eq_false, decide_false]
      rw [← Bool.not_eq_true]
      intro h
      obtain ⟨k2, r2, h1, h2⟩ := (isNameInValues_iff _ _ _).1 h
      rw [Dict.erase_eq_filter _ _ hpre.groups, List.mem_filter] at h1
      rw [hg _ h1.1, List.mem_singleton] at h2
      simp [h2] at h1
    · simp only [ne_eq, he, not_false_eq_true, decide_true]
      obtain ⟨g', hg'⟩ := used_key hpre hg hkm
      have hm' := Dict.get?_mem _ _ _ hg'
      refine (isNameInValues_iff _ _ _).2 ⟨k', g', ?_, ?_⟩
      · rw [Dict.erase_eq_filter _ _ hpre.groups, List.mem_filter]
        exact ⟨hm', by simpa using he⟩
      · rw [hg _ hm']; simp
  rw [ha]
  rfl

theorem loop_eq {nameOf} {okNames} (L : Dict (List Char) (Except PyErr Val)) :
    ∀ s : GroupQueues (List Char) Val PyErr, MakePre (names nameOf) okNames s → Single (names nameOf) s →
    L.KeysUnique → (∀ kv ∈ L, kv ∈ s.arrays) →
    gloop (names nameOf) build (L.filterMap (fun kv => (s.groups.get? kv.1).map (fun g => (kv.1, g)))) s =
      .ok (couplesLoop L s) := by
  induction L with
  | nil => intro s _ _ _ _; rfl
  | cons kv L ih =>
    obtain ⟨k, r⟩ := kv
    intro s hpre hg hu hsub
    have hu' := hu
    unfold Dict.KeysUnique at hu'
    rw [Dict.keys_cons, List.nodup_cons] at hu'
    have hk := hsub _ List.mem_cons_self
    obtain ⟨g, hgk⟩ := used_key hpre hg ((Dict.mem_keys_iff _ _).2 ⟨r, hk⟩)
    have hst := step_eq hpre hg hk hgk
    simp only [List.filterMap_cons, hgk, Option.map_some, gloop, hst, couplesLoop]
    have hpre' := gstep_pre hpre hst
    have hgr : (couplesStep k r s).groups = s.groups.erase k := by unfold couplesStep; rw [hgk]
    have har : (couplesStep k r s).arrays = s.arrays.erase k := by unfold couplesStep; rw [hgk]
    have hne : ∀ kv ∈ L, kv.1 ≠ k := fun kv hkv e => hu'.1 ((Dict.mem_keys_iff _ _).2 ⟨kv.2, e ▸ hkv⟩)
    have := ih (couplesStep k r s) hpre' (by
      intro kv hkv
      rw [hgr, Dict.erase_eq_filter _ _ hpre.groups, List.mem_filter] at hkv
      exact hg kv hkv.1) hu'.2 (by
      intro kv hkv
      rw [har, Dict.erase_eq_filter _ _ hpre.arrays, List.mem_filter]
      exact ⟨hsub _ (List.mem_cons_of_mem _ hkv), by simpa using hne kv hkv⟩)
    rw [← this]
    congr 1
    apply List.filterMap_congr
    intro kv hkv
    rw [hgr, Dict.get?_erase _ _ _ hpre.groups, if_neg (hne kv hkv)]

theorem get?_seriesOf (items : Dict (List Char) (List Char)) (k : List Char) :
    Dict.get? (seriesOf items) k = (Dict.get? items k).map (fun _ => [k]) := by
  induction items with
  | nil => rfl
  | cons kv items ih =>
    obtain ⟨k', n⟩ := kv
    unfold seriesOf at ih ⊢
    simp only [List.map_cons, Dict.get?]
    by_cases h : k' = k
    · subst h; simp
    · simp [h, ih]

theorem isGroupLoop (nameOf : List Char → List Char) (items : Dict (List Char) (List Char)) :
    IsGroupLoop fillCouplesArrays (names nameOf) build (fun _ => True) (fromSeries (names nameOf) (seriesOf items)) := by
  intro s hpre hgood
  have hg : Single (names nameOf) s := by
    intro kv hkv
    obtain ⟨ns, h1, h2⟩ := hgood kv hkv
    rw [get?_seriesOf] at h1
    cases hi : Dict.get? items kv.1 with
    | none => rw [hi] at h1; cases h1
    | some n =>
      rw [hi] at h1
      cases h1
      rw [h2, names_tup]
  refine ⟨s.arrays.filterMap (fun kv => (s.groups.get? kv.1).map (fun g => (kv.1, g))), ?_, ?_, ?_, ?_⟩
  · have : (Dict.keys (s.arrays.filterMap (fun kv => (s.groups.get? kv.1).map (fun g => (kv.1, g))))) =
        s.arrays.keys.filter (fun k => (s.groups.get? k).isSome) := by
      unfold Dict.keys
      rw [List.map_filterMap, List.filter_map, ← List.filterMap_eq_map, List.filterMap_filter]
      apply List.filterMap_congr
      intro kv _
      cases hx : s.groups.get? kv.1 <;> simp [hx]
    unfold Dict.KeysUnique
    rw [this]
    exact hpre.arrays.sublist List.filter_sublist
  · rintro ⟨k, g⟩ hkv
    obtain ⟨⟨k', r⟩, h1, h2⟩ := List.mem_filterMap.1 hkv
    cases hgk : s.groups.get? k' with
    | none => simp [hgk] at h2
    | some g' =>
      simp only [hgk, Option.map_some, Option.some.injEq, Prod.mk.injEq] at h2
      obtain ⟨rfl, rfl⟩ := h2
      exact Dict.get?_mem _ _ _ hgk
  · rintro ⟨k, g⟩ hkv hnot hall
    rw [hg _ hkv] at hall
    simp only [List.all_cons, List.all_nil, Bool.and_true] at hall
    obtain ⟨r, hr⟩ := (Dict.mem_keys_iff _ _).1 ((Dict.isSome_get?_iff _ _).1 hall)
    exact hnot (List.mem_filterMap.2 ⟨(k, r), hr, by simp [Dict.mem_get? _ hpre.groups _ _ hkv]⟩)
  · rw [loop_eq s.arrays s hpre hg hpre.arrays (fun _ h => h)]
    rfl

/-! ## The queues at the beginning -/

theorem fillRound_keysUnique (ind : Nat) (ns : List (List Char)) (d : Dict (List Char) (List Char))
    (hd : d.KeysUnique) : (fillRound ind ns d).KeysUnique := by
  induction ns generalizing d with
  | nil => exact hd
  | cons n ns ih => exact ih _ (Dict.keysUnique_set _ _ _ hd)

theorem fillRounds_keysUnique (ns : List (List Char)) (inds : List Nat) (d : Dict (List Char) (List Char))
    (hd : d.KeysUnique) : (fillRounds ns inds d).KeysUnique := by
  induction inds generalizing d with
  | nil => exact hd
  | cons ind inds ih => exact ih _ (fillRound_keysUnique _ _ _ hd)

theorem fillNames_keysUnique (m : Int) (ns : List (List Char)) : (fillNames m ns).KeysUnique :=
  fillRounds_keysUnique _ _ _ (by simp [Dict.KeysUnique, Dict.keys])

theorem fillCouplesNames_eq (items : Dict (List Char) (List Char)) (hu : items.KeysUnique)
    (d : Dict (List Char) (Except PyErr Val)) (hd : ∀ k ∈ items.keys, k ∉ d.keys) :
    fillCouplesNames items d = d ++ items.map (fun kv => (kv.1, .ok (.couple [kv]))) := by
  induction items generalizing d with
  | nil => simp [fillCouplesNames]
  | cons kv items ih =>
    obtain ⟨k, n⟩ := kv
    unfold Dict.KeysUnique at hu
    rw [Dict.keys_cons, List.nodup_cons] at hu
    unfold fillCouplesNames
    rw [Dict.set_of_not_mem _ _ _ (hd k (by simp [Dict.keys_cons])), ih hu.2]
    · simp
    · intro k' hk' hmem
      simp only [Dict.keys, List.map_append, List.map_cons, List.map_nil, List.mem_append, List.mem_singleton] at hmem
      rcases hmem with h | h
      · exact hd k' (by rw [Dict.keys_cons]; exact List.mem_cons_of_mem _ hk') h
      · exact hu.1 (h ▸ hk')

theorem fillGroups_eq (nameOf : List Char → List Char) (items : Dict (List Char) (List Char)) (hu : items.KeysUnique)
    (hn : ∀ kv ∈ items, nameOf kv.1 = kv.2) (d p : Dict (List Char) (Except PyErr Val))
    (hd : ∀ k ∈ items.keys, k ∉ d.keys) (hp : ∀ k ∈ items.keys, k ∉ p.keys) :
    fillGroups (names nameOf) (fun k => .name (nameOf k)) (seriesOf items) (d, p) =
      (d ++ items.map (fun kv => (kv.1, .ok (.couple [kv]))), p ++ items.map (fun kv => (kv.1, .ok (.name kv.2)))) := by
  induction items generalizing d p with
  | nil => simp [seriesOf, fillGroups]
  | cons kv items ih =>
    obtain ⟨k, n⟩ := kv
    unfold Dict.KeysUnique at hu
    rw [Dict.keys_cons, List.nodup_cons] at hu
    have hk : nameOf k = n := hn _ List.mem_cons_self
    have hnew : ∀ (x : Dict (List Char) (Except PyErr Val)) v, (∀ k' ∈ Dict.keys ((k, n) :: items), k' ∉ x.keys) →
        ∀ k' ∈ Dict.keys items, k' ∉ Dict.keys (x ++ [(k, v)]) := by
      intro x v hx k' hk' hmem
      simp only [Dict.keys, List.map_append, List.map_cons, List.map_nil, List.mem_append, List.mem_singleton] at hmem
      rcases hmem with h | h
      · exact hx k' (by rw [Dict.keys_cons]; exact List.mem_cons_of_mem _ hk') h
      · exact hu.1 (h ▸ hk')
    simp only [seriesOf, List.map_cons, fillGroups, fillPaths]
    rw [Dict.set_of_not_mem _ _ _ (hd k (by simp [Dict.keys_cons])),
      Dict.set_of_not_mem _ _ _ (hp k (by simp [Dict.keys_cons]))]
    have := ih hu.2 (fun kv h => hn kv (List.mem_cons_of_mem _ h)) _ _
      (hnew d (.ok ((names nameOf).tup [k])) hd) (hnew p (.ok (.name (nameOf k))) hp)
    unfold seriesOf at this
    rw [this]
    simp [names, hk]

/-- The name of a key. -/
def nameOf (items : Dict (List Char) (List Char)) (k : List Char) : List Char := (items.get? k).getD []

theorem start_eq (m : Int) (ns : List (List Char)) :
    start m ns = groupStart (names (nameOf (fillNames m ns))) (fun k => .name (nameOf (fillNames m ns) k))
      (seriesOf (fillNames m ns)) := by
  have hu := fillNames_keysUnique m ns
  unfold start
  generalize fillNames m ns = items at hu ⊢
  have hn : ∀ kv ∈ items, nameOf items kv.1 = kv.2 := by
    rintro ⟨k, n⟩ h
    simp [nameOf, Dict.mem_get? _ hu _ _ h]
  have h1 := fillGroups_eq (nameOf items) items hu hn [] [] (by simp [Dict.keys]) (by simp [Dict.keys])
  have h2 := fillCouplesNames_eq items hu [] (by simp [Dict.keys])
  funext i
  unfold groupStart
  rw [h1, h2]
  simp

/-! ## The works -/

theorem mulImages_row (a b : List Nat) (f g : Nat → Nat) (hab : a = b) :
    List.zipWith (fun x y => x * y % 256) (a.map f) (b.map g) = a.map (fun x => f x * g x % 256) := by
  subst hab
  induction a with
  | nil => rfl
  | cons x a ih => simp [ih]

theorem mulImages_map (a : Image) (f g : Nat → Nat) :
    mulImages (a.map (fun row => row.map f)) (a.map (fun row => row.map g)) =
      a.map (fun row => row.map (fun x => f x * g x % 256)) := by
  unfold mulImages
  induction a with
  | nil => rfl
  | cons r a ih => simp only [List.map_cons, List.zipWith_cons_cons, ih]; rw [mulImages_row r r f g rfl]

theorem mulLoop_map (n : Nat) (a : Image) (f g : Nat → Nat) :
    mulLoop (n + 1) (a.map (fun row => row.map f)) (a.map (fun row => row.map g)) =
      a.map (fun row => row.map (fun x => f x * g x ^ (n + 1) % 256)) := by
  induction n generalizing f with
  | zero => simp [mulLoop, mulImages_map]
  | succ n ih =>
    rw [mulLoop, mulImages_map, ih]
    congr 1; funext row; congr 1; funext x
    rw [Nat.mod_mul_mod]
    congr 1
    ring

theorem map_self (a : Image) : a = a.map (fun row => row.map (fun x => x)) := by simp

/-- What `cpu1` and `cpu2` return for a positive number of loops. -/
theorem cpu1_power (a : Image) (n : Nat) (hn : 0 < n) :
    cpu1 a a n = .ok (power a (n + 1), power a (n + 1)) := by
  obtain ⟨m, rfl⟩ : ∃ m, n = m + 1 := ⟨n - 1, by omega⟩
  unfold cpu1
  rw [if_neg (by omega)]
  have h := mulLoop_map m a (fun x => x) (fun x => x)
  rw [← map_self] at h
  have e : ((m + 1 : Nat) : Int).toNat = m + 1 := by omega
  simp only [e, h, power]
  have : ∀ x : Nat, x * x ^ (m + 1) = x ^ (m + 1 + 1) := fun x => by ring
  simp only [this]

theorem cpu2_power (a : Image) (n : Nat) (hn : 0 < n) :
    cpu2 (power a (n + 1)) (power a (n + 1)) n = .ok (power a ((n + 1) * (n + 1))) := by
  obtain ⟨m, rfl⟩ : ∃ m, n = m + 1 := ⟨n - 1, by omega⟩
  unfold cpu2
  rw [if_neg (by omega)]
  have e : ((m + 1 : Nat) : Int).toNat = m + 1 := by omega
  simp only [e, power, mulLoop_map]
  congr 3; funext row; congr 1; funext x
  rw [Nat.mod_mul_mod, Nat.mul_mod, ← Nat.pow_mod, ← Nat.mul_mod]
  congr 1
  ring

/-! ## The computation -/

section
variable (imread : List Char → Except PyErr Image) (savemat : List Char → Image → Except PyErr Unit)

theorem setup (nloops : Int) (m : Int) (ns : List (List Char)) :
    GroupSetup [⟨true, fun _ => readArray imread⟩]
      [⟨false, fun _ => func1 nloops⟩, ⟨false, fun _ => func2 nloops⟩, ⟨true, fun _ => save savemat⟩]
      fillCouplesArrays (names (nameOf (fillNames m ns))) build (fun _ => True) (seriesOf (fillNames m ns)) where
  loop := isGroupLoop _ _
  post := by simp
  keys := by
    have := fillNames_keysUnique m ns
    simpa [seriesOf, Dict.KeysUnique, Dict.keys, Function.comp_def] using this
  names := fun _ _ => trivial

theorem buildOk (items : Dict (List Char) (List Char)) (pre : List (ChainWork (List Char) Val PyErr)) (pathOf) :
    BuildOk pre build pathOf (seriesOf items) := by
  intro k ns h
  unfold build
  split <;> exact ⟨_, rfl⟩

theorem readArray_readable (n : List Char) :
    readArray imread (.name n) = (readable imread n).map Val.array := by
  unfold readArray readable
  have : ("Karman_03.bmp".toList) = badName := by decide +kernel
  rw [this]
  by_cases h : n = badName
  · simp [h, Except.map]
  · cases hi : imread n <;> simp [h, hi, Except.map]

theorem done {nloops : Nat} (hn : 0 < nloops) {m : Int} {ns : List (List Char)} {log : List (Event (List Char) Val PyErr)}
    (h : GroupDone [⟨true, fun _ => readArray imread⟩]
      [⟨false, fun _ => func1 nloops⟩, ⟨false, fun _ => func2 nloops⟩, ⟨true, fun _ => save savemat⟩] build
      (fun k => .name (nameOf (fillNames m ns) k)) (seriesOf (fillNames m ns)) log) :
    Done imread savemat nloops (fillNames m ns) log := by
  have hu := fillNames_keysUnique m ns
  generalize fillNames m ns = items at h hu ⊢
  have hmem : ∀ k n, (k, n) ∈ items → k ∈ namesOfSeries (seriesOf items) := by
    intro k n hk
    exact List.mem_flatMap.2 ⟨(k, [k]), List.mem_map.2 ⟨(k, n), hk, rfl⟩, by simp⟩
  have hname : ∀ k n, (k, n) ∈ items → nameOf items k = n := by
    intro k n hk
    simp [nameOf, Dict.mem_get? _ hu _ _ hk]
  have hbad : "Karman_02_00".toList = badKey := by decide +kernel
  have hh5 : ".h5".toList = ['.', 'h', '5'] := by decide +kernel
  refine ⟨?_, ?_, ?_⟩
  · intro k n hk
    have := h.images k (hmem k n hk)
    simp only [List.length_singleton] at this
    rw [this, hname k n hk]
    unfold readEvents
    simp only [imageEvents, readArray_readable]
    cases readable imread n <;> rfl
  · intro k n hk
    have hg : Dict.get? (seriesOf items) k = some [k] := by
      rw [get?_seriesOf, Dict.mem_get? _ hu _ _ hk]; rfl
    have := h.groups k [k] hg
    simp only [List.length_singleton] at this
    rw [this]
    unfold groupEvents laterEvents
    simp only [List.map_cons, List.map_nil, build, finOf, imageOf, hname k n hk, readArray_readable,
      List.length_singleton, hbad, hh5]
    cases readable imread n with
    | error e => simp [outOf, Except.map, itemEvents]
    | ok a =>
      simp only [outOf, Except.map]
      by_cases hb : k = badKey
      · simp [itemEvents, func1, hb]
      · have h1 : func1 nloops (.arrays k a a) = .ok (.arrays k (power a (nloops + 1)) (power a (nloops + 1))) := by
          simp only [func1, if_neg hb, cpu1_power a nloops hn]
        have h2 : func2 nloops (.arrays k (power a (nloops + 1)) (power a (nloops + 1))) =
            .ok (.result k (power a ((nloops + 1) * (nloops + 1)))) := by
          simp only [func2, cpu2_power a nloops hn]
        rw [if_neg hb]
        simp only [itemEvents, h1, h2, save]
        cases savemat (k ++ ['.', 'h', '5']) (power a ((nloops + 1) * (nloops + 1))) <;> rfl
  · intro k hk
    have hnone : Dict.get? items k = none := by
      cases hg : Dict.get? items k with
      | none => rfl
      | some n => exact absurd (Dict.get?_mem _ _ _ hg) (hk n)
    have h1 := h.noGroup k (by rw [get?_seriesOf, hnone]; rfl)
    have h2 := h.noImage k (by
      intro hm
      obtain ⟨s, hs, hks⟩ := List.mem_flatMap.1 hm
      obtain ⟨⟨k', n⟩, hi, rfl⟩ := List.mem_map.1 hs
      simp only [List.mem_singleton] at hks
      subst hks
      exact hk n hi)
    unfold historyOf
    rw [List.filter_eq_nil_iff]
    intro e he hke
    simp only [List.length_singleton] at h1 h2
    unfold eventsOf at h1 h2
    rw [List.filter_eq_nil_iff] at h1 h2
    have h3 := h1 e he
    have h4 := h2 e he
    cases e <;> simp [keyOf] at hke h3 h4 <;>
    · rename_i w _ _
      rcases Nat.eq_zero_or_pos w with h5 | h5
      · exact h4 h5 (of_decide_eq_true hke)
      · exact h3 h5 (of_decide_eq_true hke)

end

theorem waiting_single (items : Dict (List Char) (List Char)) (b : Nat) (hb : 0 < b) :
    WaitingBelow (seriesOf items) b := by
  intro loaded rest _ _
  have : waiting (seriesOf items) loaded = [] := by
    unfold waiting
    rw [List.filter_eq_nil_iff]
    intro n hn h
    rw [List.any_eq_true] at h
    obtain ⟨s, hs, h⟩ := h
    obtain ⟨⟨k, x⟩, _, rfl⟩ := List.mem_map.1 hs
    simp only [List.mem_singleton, List.any_cons, List.any_nil, Bool.or_false, Bool.and_eq_true,
      decide_eq_true_eq] at h
    exact h.2 (h.1 ▸ hn)
  rw [this]
  exact hb

end ExampleTopology

open ExampleTopology

section
variable (imread : List Char → Except PyErr ExampleTopology.Image)
  (savemat : List Char → ExampleTopology.Image → Except PyErr Unit) (nloops : Nat) (m : Int) (ns : List (List Char))

/-- C146 (asynchronous executors).  For every directory, every function reading or saving images (which may raise) and
every positive `nloops`: when an execution reaches the stop flag, whatever the schedule and the limits, each item has
been read once, combined once and saved once; an image which is refused by a work is reported once and does not change
what happens to the other ones; nothing is left in the queues. -/
theorem C146_async (hn : 0 < nloops) (c : Cfg) (ls : List Label) (s : AState (List Char) Val PyErr Unit)
    (hrun : ARun (topology imread savemat nloops) c (AState.init (start m ns) ()) ls s) (hstop : s.stop = true) :
    Done imread savemat nloops (fillNames m ns) s.log ∧
    (∀ i < (topology imread savemat nloops).nq, s.q i = []) ∧ s.inflight = [] := by
  rw [start_eq] at hrun
  obtain ⟨h1, h2, h3, _⟩ := (setup imread savemat nloops m ns).async hrun hstop
  exact ⟨done imread savemat hn h1, h2, h3⟩

/-- C146 (sequential executor): the run terminates, nothing is raised, and the same holds. -/
theorem C146_sequential (hn : 0 < nloops) (c : Cfg) (hst : c.stopIfError = false) :
    ∃ fuel s, seqLoop (topology imread savemat nloops) c fuel (SState.init (start m ns) ()) = some s ∧
      s.crashed = none ∧ Done imread savemat nloops (fillNames m ns) s.log ∧
      (∀ i < (topology imread savemat nloops).nq, s.q i = []) := by
  rw [start_eq]
  obtain ⟨k, s, h0, h1, h2, h3⟩ := (setup imread savemat nloops m ns).seq (buildOk _ _ _) hst
  exact ⟨k, s, h0, h1, done imread savemat hn h2, h3⟩

/-- C146: without `stop_if_error`, nothing escapes from the asynchronous executors, whatever `nloops` is. -/
theorem C146_no_crash (nl : Int) (c : Cfg) (hst : c.stopIfError = false) (ls : List Label)
    (s : AState (List Char) Val PyErr Unit)
    (hrun : ARun (topology imread savemat nl) c (AState.init (start m ns) ()) ls s) : s.crashed = none := by
  rw [start_eq] at hrun
  exact (setup imread savemat nl m ns).noCrash (buildOk _ _ _) hst hrun

/-- C146: every infinite execution under a fair scheduler sets the stop flag, for every number of images and every
positive limits: contrary to the other topologies making couples, no image waits for another one. -/
theorem C146_finishes (nl : Int) (c : Cfg) (hmax : 0 < c.maxWorkers) (hq : 0 < c.queueMax)
    (run : Nat → AState (List Char) Val PyErr Unit) (lab : Nat → Label)
    (h0 : run 0 = AState.init (start m ns) ())
    (hrun : Infinite (topology imread savemat nl) c run lab)
    (hfair : Fair (topology imread savemat nl) c run lab) : ∃ n, (run n).stop = true := by
  rw [start_eq] at h0
  exact (setup imread savemat nl m ns).fair (buildOk _ _ _) (by simp) hmax hq
    (Or.inr ⟨rfl, waiting_single _ _ hq⟩) h0 hrun hfair

/-- C146: every reachable state can be continued until the stop flag is set. -/
theorem C146_no_deadlock (nl : Int) (c : Cfg) (hst : c.stopIfError = false) (hmax : 0 < c.maxWorkers)
    (hq : 0 < c.queueMax) (ls : List Label) (s : AState (List Char) Val PyErr Unit)
    (hrun : ARun (topology imread savemat nl) c (AState.init (start m ns) ()) ls s) :
    ∃ ls' s', ARun (topology imread savemat nl) c s ls' s' ∧ s'.stop = true := by
  rw [start_eq] at hrun
  exact (setup imread savemat nl m ns).canFinish (buildOk _ _ _) (by simp) hst hmax hq
    (Or.inr ⟨rfl, waiting_single _ _ hq⟩) hrun

end

/-! ## The keys -/

namespace ExampleTopology
open Verif.Text

theorem digit_ne (c : Char) (h : (digitVal c).isSome = true) : c ≠ '_' := by
  rintro rfl
  revert h
  decide

theorem pad2_digits (n : Nat) : ∀ c ∈ TimeFormat.pad2 n, (digitVal c).isSome = true := by
  intro c hc
  unfold TimeFormat.pad2 at hc
  split at hc
  · rcases List.mem_cons.1 hc with rfl | hc
    · decide
    · exact natStr_digits n c hc
  · exact natStr_digits n c hc

theorem pad2_injective (a b : Nat) (h : TimeFormat.pad2 a = TimeFormat.pad2 b) : a = b := by
  have e : ∀ n, digitsVal 0 (TimeFormat.pad2 n) = some n := by
    intro n
    unfold TimeFormat.pad2
    split
    · have : digitVal '0' = some 0 := by decide
      simp only [digitsVal, this, Nat.zero_mul, Nat.add_zero]
      exact digitsVal_natStr n
    · exact digitsVal_natStr n
  have ha := e a
  rw [h, e b] at ha
  exact (Option.some.inj ha).symm

theorem last_sep {a b x y : List Char} (hx : '_' ∉ x) (hy : '_' ∉ y) (h : a ++ '_' :: x = b ++ '_' :: y) :
    a = b ∧ x = y := by
  induction a generalizing b with
  | nil =>
    cases b with
    | nil => simpa using h
    | cons c b =>
      simp only [List.nil_append, List.cons_append, List.cons.injEq] at h
      exact absurd (h.2 ▸ (by simp : '_' ∈ b ++ '_' :: y)) hx
  | cons d a ih =>
    cases b with
    | nil =>
      simp only [List.nil_append, List.cons_append, List.cons.injEq] at h
      exact absurd (h.2 ▸ (by simp : '_' ∈ a ++ '_' :: x)) hy
    | cons c b =>
      simp only [List.cons_append, List.cons.injEq] at h
      obtain ⟨h1, h2⟩ := ih h.2
      exact ⟨by rw [h.1, h1], h2⟩

theorem keyOfName_eq {n n' : List Char} {i j : Nat} (h : keyOfName n i = keyOfName n' j) : stem n = stem n' ∧ i = j := by
  obtain ⟨h1, h2⟩ := last_sep (fun hm => digit_ne _ (pad2_digits _ _ hm) rfl)
    (fun hm => digit_ne _ (pad2_digits _ _ hm) rfl) h
  exact ⟨h1, pad2_injective _ _ h2⟩

/-- The last name of the list with this key. -/
def LastNamed (ind : Nat) (k n : List Char) (ns : List (List Char)) : Prop :=
  ∃ l1 l2, ns = l1 ++ n :: l2 ∧ keyOfName n ind = k ∧ ∀ n' ∈ l2, keyOfName n' ind ≠ k

theorem LastNamed.cons_iff {ind : Nat} {k n n0 : List Char} {ns : List (List Char)} :
    LastNamed ind k n (n0 :: ns) ↔
      LastNamed ind k n ns ∨ (n0 = n ∧ keyOfName n ind = k ∧ ∀ n' ∈ ns, keyOfName n' ind ≠ k) := by
  constructor
  · rintro ⟨l1, l2, h1, h2, h3⟩
    cases l1 with
    | nil =>
      simp only [List.nil_append, List.cons.injEq] at h1
      obtain ⟨rfl, rfl⟩ := h1
      exact Or.inr ⟨rfl, h2, h3⟩
    | cons x l1 =>
      simp only [List.cons_append, List.cons.injEq] at h1
      exact Or.inl ⟨l1, l2, h1.2, h2, h3⟩
  · rintro (⟨l1, l2, h1, h2, h3⟩ | ⟨rfl, h2, h3⟩)
    · exact ⟨n0 :: l1, l2, by rw [h1]; rfl, h2, h3⟩
    · exact ⟨[], ns, rfl, h2, h3⟩

theorem fillRound_get? (ind : Nat) (ns : List (List Char)) (d : Dict (List Char) (List Char)) (k n : List Char) :
    (fillRound ind ns d).get? k = some n ↔
      LastNamed ind k n ns ∨ ((∀ n' ∈ ns, keyOfName n' ind ≠ k) ∧ d.get? k = some n) := by
  induction ns generalizing d with
  | nil => simp [fillRound, LastNamed]
  | cons n0 ns ih =>
    unfold fillRound
    rw [ih, LastNamed.cons_iff, Dict.get?_set]
    by_cases h : keyOfName n0 ind = k
    · subst h
      simp only [if_true, Option.some.injEq, List.forall_mem_cons, ne_eq, not_true_eq_false, false_and, or_false]
      constructor
      · rintro (h1 | ⟨h1, rfl⟩)
        · exact Or.inl h1
        · exact Or.inr ⟨rfl, rfl, h1⟩
      · rintro (h1 | ⟨rfl, _, h1⟩)
        · exact Or.inl h1
        · exact Or.inr ⟨h1, rfl⟩
    · have h' : ¬ k = keyOfName n0 ind := fun e => h e.symm
      simp only [h, h', if_false, List.forall_mem_cons, ne_eq, not_false_eq_true, true_and]
      constructor
      · rintro (h1 | h1)
        · exact Or.inl (Or.inl h1)
        · exact Or.inr h1
      · rintro ((h1 | ⟨rfl, h1, _⟩) | h1)
        · exact Or.inl h1
        · exact absurd h1 h
        · exact Or.inr h1

theorem LastNamed.mem {ind : Nat} {k n : List Char} {ns : List (List Char)} (h : LastNamed ind k n ns) :
    n ∈ ns ∧ keyOfName n ind = k := by
  obtain ⟨l1, l2, rfl, h2, _⟩ := h
  exact ⟨by simp, h2⟩

theorem fillRounds_get? (ns : List (List Char)) (inds : List Nat) (hnd : inds.Nodup) (d : Dict (List Char) (List Char))
    (k n : List Char) : (fillRounds ns inds d).get? k = some n ↔
      (∃ ind ∈ inds, LastNamed ind k n ns) ∨
      ((∀ ind ∈ inds, ∀ n' ∈ ns, keyOfName n' ind ≠ k) ∧ d.get? k = some n) := by
  induction inds generalizing d with
  | nil => simp [fillRounds]
  | cons i inds ih =>
    rw [List.nodup_cons] at hnd
    unfold fillRounds
    rw [ih hnd.2, fillRound_get?]
    constructor
    · rintro (⟨j, h1, h2⟩ | ⟨h1, h2 | ⟨h2, h3⟩⟩)
      · exact Or.inl ⟨j, List.mem_cons_of_mem _ h1, h2⟩
      · exact Or.inl ⟨i, List.mem_cons_self, h2⟩
      · refine Or.inr ⟨fun j hj => ?_, h3⟩
        rcases List.mem_cons.1 hj with rfl | hj
        · exact h2
        · exact h1 j hj
    · rintro (⟨j, h1, h2⟩ | ⟨h1, h2⟩)
      · rcases List.mem_cons.1 h1 with rfl | h1
        · refine Or.inr ⟨fun j' hj' n' hn' he => ?_, Or.inl h2⟩
          have := (keyOfName_eq (he.trans h2.mem.2.symm)).2
          exact hnd.1 (this ▸ hj')
        · exact Or.inl ⟨j, h1, h2⟩
      · exact Or.inr ⟨fun j hj => h1 j (List.mem_cons_of_mem _ hj), Or.inr ⟨h1 i List.mem_cons_self, h2⟩⟩

end ExampleTopology

/-- What precedes the first ".bmp" of the name: `s` is the stem of the name if the name is `s` and does not contain
".bmp", or if the name is `s` followed by ".bmp" and possibly something else, with no ".bmp" before. -/
theorem C146_stem (n : List Char) :
    (stem n = n ∧ ∀ a b, n ≠ a ++ ".bmp".toList ++ b) ∨
    (∃ b, n = stem n ++ ".bmp".toList ++ b ∧ ∀ a b', n = a ++ ".bmp".toList ++ b' → (stem n).length ≤ a.length) := by
  have hb : ".bmp".toList = ['.', 'b', 'm', 'p'] := by decide +kernel
  rw [hb]
  induction n with
  | nil => left; simp [stem]
  | cons c n ih =>
    unfold stem
    split
    · rename_i h
      rw [List.isPrefixOf_iff_prefix] at h
      obtain ⟨b, hb⟩ := h
      exact Or.inr ⟨b, by simpa using hb.symm, fun _ _ _ => by simp⟩
    · rename_i h
      have hstart : ∀ b, c :: n ≠ [] ++ ['.', 'b', 'm', 'p'] ++ b := by
        intro b e
        apply h
        rw [List.isPrefixOf_iff_prefix, e]
        exact ⟨b, by simp⟩
      have hcons : ∀ a b, c :: n = a ++ ['.', 'b', 'm', 'p'] ++ b → ∃ a', a = c :: a' ∧ n = a' ++ ['.', 'b', 'm', 'p'] ++ b := by
        intro a b e
        cases a with
        | nil => exact absurd e (hstart b)
        | cons x a =>
          simp only [List.cons_append, List.cons.injEq] at e
          exact ⟨a, by rw [e.1], by simpa using e.2⟩
      rcases ih with ⟨h1, h2⟩ | ⟨b, h1, h2⟩
      · left
        refine ⟨by rw [h1], fun a b e => ?_⟩
        obtain ⟨a', _, e2⟩ := hcons a b e
        exact h2 a' b e2
      · right
        refine ⟨b, by simpa using h1, fun a b' e => ?_⟩
        obtain ⟨a', rfl, e2⟩ := hcons a b' e
        have := h2 a' b' e2
        simpa using this

/-- C146: the items of the computation.  The keys are the stems followed by an underscore and the number of the repetition
(two digits at least); among the images with the same stem, only the last one (in the sorted order) is used. -/
theorem C146_items (m : Int) (ns : List (List Char)) (k n : List Char) :
    (k, n) ∈ fillNames m ns ↔ ∃ ind : Nat, (ind : Int) < m ∧ k = stem n ++ '_' :: TimeFormat.pad2 ind ∧
      ∃ l1 l2, ns = l1 ++ n :: l2 ∧ ∀ n' ∈ l2, stem n' ≠ stem n := by
  have hu := fillNames_keysUnique m ns
  have h1 : (k, n) ∈ fillNames m ns ↔ (fillNames m ns).get? k = some n :=
    ⟨Dict.mem_get? _ hu _ _, Dict.get?_mem _ _ _⟩
  rw [h1]
  unfold fillNames
  rw [fillRounds_get? _ _ List.nodup_range]
  simp only [Dict.get?, reduceCtorEq, and_false, or_false, List.mem_range]
  constructor
  · rintro ⟨ind, h2, l1, l2, h3, h4, h5⟩
    refine ⟨ind, by omega, h4.symm, l1, l2, h3, fun n' hn' he => h5 n' hn' ?_⟩
    rw [← h4]; unfold keyOfName; rw [he]
  · rintro ⟨ind, h2, rfl, l1, l2, h3, h4⟩
    refine ⟨ind, by omega, l1, l2, h3, rfl, fun n' hn' he => h4 n' hn' ?_⟩
    exact (keyOfName_eq (j := ind) he).1

/-- C146: the keys are different (so are the names of the files, which are the keys followed by ".h5"). -/
theorem C146_keys (m : Int) (ns : List (List Char)) : ((fillNames m ns).map (fun kv => kv.1 ++ ".h5".toList)).Nodup := by
  have := fillNames_keysUnique m ns
  unfold Dict.KeysUnique Dict.keys at this
  have e : (fillNames m ns).map (fun kv => kv.1 ++ ".h5".toList) =
      ((fillNames m ns).map Prod.fst).map (fun k => k ++ ".h5".toList) := by simp [List.map_map, Function.comp_def]
  rw [e]
  exact this.map (fun a b h => List.append_cancel_right h)

/-- C146: if the stems of the names are different then every image is used in every repetition. -/
theorem C146_all_partial (m : Int) (ns : List (List Char)) (hs : (ns.map stem).Nodup) (n : List Char) (hn : n ∈ ns) (ind : Nat)
    (hi : (ind : Int) < m) : (stem n ++ '_' :: TimeFormat.pad2 ind, n) ∈ fillNames m ns := by
  rw [C146_items]
  refine ⟨ind, hi, rfl, ?_⟩
  obtain ⟨l1, l2, rfl⟩ := List.append_of_mem hn
  refine ⟨l1, l2, rfl, fun n' hn' he => ?_⟩
  rw [List.map_append, List.map_cons, List.nodup_append] at hs
  have := (List.nodup_cons.1 hs.2.1).1
  exact this (he ▸ List.mem_map.2 ⟨n', hn', rfl⟩)

/-- C146 does not hold without this condition: an image followed by another one with the same stem is never read, and
no message says it. -/
theorem C146_all_fails (m : Int) (l1 l2 l3 : List (List Char)) (n n' : List Char) (hs : stem n = stem n')
    (hd : (l1 ++ n :: l2 ++ n' :: l3).Nodup) :
    ∀ k, (k, n) ∉ fillNames m (l1 ++ n :: l2 ++ n' :: l3) := by
  intro k h
  rw [C146_items] at h
  obtain ⟨_, _, _, a, b, h1, h2⟩ := h
  have hd' : (l1 ++ n :: (l2 ++ n' :: l3)).Nodup := by simpa using hd
  have h1' : l1 ++ n :: (l2 ++ n' :: l3) = a ++ n :: b := by simpa using h1
  have hb : b = l2 ++ n' :: l3 := by
    have hna : n ∉ l1 := by
      rw [List.nodup_append] at hd'
      intro hn
      exact hd'.2.2 n hn n (by simp) rfl
    have hnb : n ∉ a := by
      rw [h1', List.nodup_append] at hd'
      intro hn
      exact hd'.2.2 n hn n (by simp) rfl
    clear hd hd' h1 h2
    induction l1 generalizing a with
    | nil =>
      cases a with
      | nil => simpa using h1'.symm
      | cons x a => simp only [List.nil_append, List.cons_append, List.cons.injEq] at h1'; simp [h1'.1] at hnb
    | cons y l1 ih =>
      cases a with
      | nil => simp only [List.nil_append, List.cons_append, List.cons.injEq] at h1'; simp [h1'.1] at hna
      | cons x a =>
        simp only [List.cons_append, List.cons.injEq] at h1'
        exact ih a h1'.2 (fun h => hna (List.mem_cons_of_mem _ h)) (fun h => hnb (List.mem_cons_of_mem _ h))
  subst hb
  exact h2 n' (by simp) hs.symm

/-- C146: what is saved.  When what has to happen has happened, the function saving is called for a key with a value if
and only if the key is the one of an item whose image could be read, is not the refused key, and the value is the image
to the power `(nloops + 1)²`. -/
theorem C146_saved {imread : List Char → Except PyErr ExampleTopology.Image}
    {savemat : List Char → ExampleTopology.Image → Except PyErr Unit} {nloops : Nat}
    {items : List (List Char × List Char)} {log : List (Event (List Char) Val PyErr)}
    (h : Done imread savemat nloops items log) (k : List Char) (v : Val) :
    Event.call 4 k v ∈ log ↔ ∃ n a, (k, n) ∈ items ∧ readable imread n = .ok a ∧ k ≠ "Karman_02_00".toList ∧
      v = .result k (power a ((nloops + 1) * (nloops + 1))) := by
  have hev : Event.call 4 k v ∈ log ↔ Event.call 4 k v ∈ eventsOf (fun w => decide (1 ≤ w)) k log := by
    simp [eventsOf]
  constructor
  · intro hm
    by_cases hi : ∃ n, (k, n) ∈ items
    · obtain ⟨n, hn⟩ := hi
      rw [hev, h.later k n hn] at hm
      unfold laterEvents at hm
      cases hr : readable imread n with
      | error e => rw [hr] at hm; simp at hm
      | ok a =>
        rw [hr] at hm
        simp only at hm
        split at hm
        · simp at hm
        · rename_i hk
          refine ⟨n, a, hn, hr, hk, ?_⟩
          rcases List.mem_append.1 hm with h1 | h1
          · simpa using h1
          · split at h1 <;> simp at h1
    · have := h.others k (fun n hn => hi ⟨n, hn⟩)
      unfold historyOf at this
      rw [List.filter_eq_nil_iff] at this
      exact absurd (by simp [keyOf]) (this _ hm)
  · rintro ⟨n, a, hn, hr, hk, rfl⟩
    rw [hev, h.later k n hn]
    unfold laterEvents
    rw [hr]
    simp only
    rw [if_neg hk]
    simp

/-- C146 does not hold for `nloops = 0`: whatever the images are, nothing is saved. -/
theorem C146_zero_fails (imread : List Char → Except PyErr ExampleTopology.Image)
    (savemat : List Char → ExampleTopology.Image → Except PyErr Unit) (m : Int) (ns : List (List Char)) (c : Cfg)
    (ls : List Label) (s : AState (List Char) Val PyErr Unit)
    (hrun : ARun (topology imread savemat 0) c (AState.init (start m ns) ()) ls s) (hstop : s.stop = true)
    (k : List Char) (v : Val) : Event.call 4 k v ∉ s.log := by
  rw [start_eq] at hrun
  obtain ⟨h, _⟩ := (setup imread savemat 0 m ns).async hrun hstop
  intro hm
  have hev : Event.call 4 k v ∈ eventsOf (fun w => decide (1 ≤ w)) k s.log := by simp [eventsOf, hm]
  have herr : ∀ r, ∃ e, func1 0 r = .error e := by
    intro r
    cases r with
    | arrays key a b =>
      by_cases hb : key = badKey
      · exact ⟨.valueError, by simp [func1, hb]⟩
      · exact ⟨.zeroDivisionError, by simp [func1, hb, cpu1]⟩
    | _ => exact ⟨_, rfl⟩
  cases hg : Dict.get? (seriesOf (fillNames m ns)) k with
  | none =>
    have h1 := h.noGroup k hg
    simp only [List.length_singleton] at h1
    rw [h1] at hev; cases hev
  | some ns' =>
    have h1 := h.groups k ns' hg
    simp only [List.length_singleton] at h1
    rw [h1] at hev
    unfold groupEvents at hev
    split at hev
    · rename_i r _
      cases r with
      | error e => simp [itemEvents] at hev
      | ok r =>
        obtain ⟨e, he⟩ := herr r
        simp [itemEvents, he] at hev
    · cases hev

namespace ExampleTopologyCase

def file (c : Char) : List Char := ['K', 'a', 'r', 'm', 'a', 'n', '_', '0', c, '.', 'b', 'm', 'p']

/-- The four images of the directory `Karman`. -/
def files : List (List Char) := [file '1', file '2', file '3', file '4']

def imread (_ : List Char) : Except PyErr ExampleTopology.Image := .ok [[3, 20], [255, 1]]
def savemat (_ : List Char) (_ : ExampleTopology.Image) : Except PyErr Unit := .ok ()

def key (c : Char) : List Char := ['K', 'a', 'r', 'm', 'a', 'n', '_', '0', c, '_', '0', '0']

/-- The items, and what is saved: the images 1 and 4, to the power 4. -/
example : fillNames 1 files = [(key '1', file '1'), (key '2', file '2'), (key '3', file '3'), (key '4', file '4')] := by
  decide +kernel

example : power [[3, 20], [255, 1]] 4 = [[81, 0], [1, 1]] := by decide +kernel

/-- The hypotheses of `C146_async` are met. -/
example : ∃ ls s, ARun (topology imread savemat 1) { maxWorkers := 2, queueMax := 4, stopIfError := false }
    (AState.init (start 1 files) ()) ls s ∧ s.stop = true :=
  C146_no_deadlock imread savemat 1 files 1 _ rfl (by decide) (by decide) [] _ (.nil _)

example : (files.map stem).Nodup := by decide +kernel

/-- Two images whose names have the same stem. -/
example : stem ['a', '.', 'b', 'm', 'p'] = stem ['a', '.', 'b', 'm', 'p', '.', 'b', 'm', 'p'] := by decide +kernel

end ExampleTopologyCase

end Verif
