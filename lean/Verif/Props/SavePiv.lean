import Verif.Model.SavePiv

/-!
# C130: a PIV result is saved at the place which is asked
-/

namespace Verif
open Verif.SavePiv Verif.ResultsFiles Verif.Uvmat Verif.Names

/-! ## Specification -/

/-- The name of a file: it is not empty and has no "/". -/
def FileName (n : Txt) : Prop := n ≠ [] ∧ '/' ∉ n

/-- The path of a directory, written without "/" at its end. -/
def DirPath (d : Txt) : Prop := d ≠ [] ∧ d.getLast? ≠ some '/'

/-- The file called `n` of a directory. -/
def inDir (d n : Txt) : Txt := d ++ '/' :: n

/-- The path does not look like the path of a file: its last component does not end with ".h5" or ".nc". -/
def NoExtension (d : Txt) : Prop := ¬ ".h5".toList <:+ d ∧ ¬ ".nc".toList <:+ d

/-- Only the file `p` has changed, and it contains the document. -/
def OnlyFile {D : Type} (s s' : Disk D) (p : Txt) (doc : Doc D) : Prop :=
  s'.dirs = s.dirs ∧ s'.files p = some doc ∧ ∀ q, q ≠ p → s'.files q = s.files q

/-! ## Paths -/

theorem sp_join (d n : Txt) (hd : DirPath d) (hn : FileName n) : pathJoin d n = inDir d n := by
  unfold pathJoin inDir
  have h1 : n.head? ≠ some '/' := by
    intro h
    cases n with
    | nil => cases h
    | cons c cs =>
      simp only [List.head?_cons, Option.some.injEq] at h
      subst h
      exact hn.2 (by simp)
  rw [if_neg h1, if_neg (not_or.2 ⟨hd.1, hd.2⟩)]

theorem sp_takeWhile_rev (n r : List Char) (hn : '/' ∉ n) : (n ++ '/' :: r).takeWhile (· ≠ '/') = n := by
  induction n with
  | nil => simp
  | cons c cs ih =>
    have hc : c ≠ '/' := by rintro rfl; exact hn (by simp)
    rw [List.cons_append, List.takeWhile_cons, if_pos (by simpa using hc), ih (fun h => hn (List.mem_cons_of_mem _ h))]

theorem sp_dropWhile_rev (n r : List Char) (hn : '/' ∉ n) : (n ++ '/' :: r).dropWhile (· ≠ '/') = '/' :: r := by
  induction n with
  | nil => simp
  | cons c cs ih =>
    have hc : c ≠ '/' := by rintro rfl; exact hn (by simp)
    rw [List.cons_append, List.dropWhile_cons, if_pos (by simpa using hc), ih (fun h => hn (List.mem_cons_of_mem _ h))]

theorem sp_base (d n : Txt) (hn : FileName n) : SavePiv.baseName (inDir d n) = n := by
  unfold SavePiv.baseName inDir
  rw [List.reverse_append, List.reverse_cons, List.append_assoc, List.singleton_append,
    sp_takeWhile_rev _ _ (by simpa using hn.2), List.reverse_reverse]

theorem sp_parent (d n : Txt) (hn : FileName n) : parent (inDir d n) = d := by
  unfold parent inDir
  rw [List.reverse_append, List.reverse_cons, List.append_assoc, List.singleton_append, sp_dropWhile_rev _ _ (by simpa using hn.2)]
  simp

theorem sp_takeWhile_none (n : List Char) (hn : '/' ∉ n) : n.takeWhile (· ≠ '/') = n := by
  induction n with
  | nil => rfl
  | cons c cs ih =>
    have hc : c ≠ '/' := by rintro rfl; exact hn (by simp)
    rw [List.takeWhile_cons, if_pos (by simpa using hc), ih (fun h => hn (List.mem_cons_of_mem _ h))]

theorem sp_base_name (n : Txt) (hn : FileName n) : SavePiv.baseName n = n := by
  unfold SavePiv.baseName
  rw [sp_takeWhile_none _ (by simpa using hn.2), List.reverse_reverse]

theorem sp_parent_name (n : Txt) (hn : FileName n) : parent n = [] := by
  unfold parent
  have : ∀ l : List Char, '/' ∉ l → l.dropWhile (· ≠ '/') = [] := by
    intro l hl
    induction l with
    | nil => rfl
    | cons c cs ih =>
      have hc : c ≠ '/' := by rintro rfl; exact hl (by simp)
      rw [List.dropWhile_cons, if_pos (by simpa using hc), ih (fun h => hl (List.mem_cons_of_mem _ h))]
  rw [this _ (by simpa using hn.2)]
  rfl

theorem sp_dot_split (l : List Char) : ∀ b bs, l.dropWhile (· ≠ '.') = b :: bs → b = '.' ∧ l = l.takeWhile (· ≠ '.') ++ '.' :: bs := by
  induction l with
  | nil => intro b bs h; cases h
  | cons c cs ih =>
    intro b bs h
    by_cases hc : c = '.'
    · subst hc
      simp only [List.dropWhile_cons, ne_eq, not_true_eq_false, decide_false, Bool.false_eq_true, if_false, List.cons.injEq] at h
      obtain ⟨rfl, rfl⟩ := h
      simp
    · rw [List.dropWhile_cons, if_pos (by simpa using hc)] at h
      obtain ⟨rfl, h2⟩ := ih b bs h
      refine ⟨rfl, ?_⟩
      rw [List.takeWhile_cons, if_pos (by simpa using hc), List.cons_append, ← h2]

theorem sp_extension_suffix (p : Txt) : extension p <:+ p := by
  unfold extension
  simp only
  split
  · exact List.nil_suffix
  next b bs hb =>
  split
  · exact List.nil_suffix
  obtain ⟨-, h⟩ := sp_dot_split _ _ _ hb
  have h1 : (p.reverse).takeWhile (· ≠ '/') <+: p.reverse := List.takeWhile_prefix _
  generalize (p.reverse).takeWhile (· ≠ '/') = r at h h1 ⊢
  have h2 : r.takeWhile (· ≠ '.') ++ ['.'] <+: r := ⟨bs, by rw [List.append_assoc]; exact h.symm⟩
  have h3 := h2.trans h1
  have h4 := List.reverse_suffix.2 h3
  rw [List.reverse_reverse, List.reverse_append] at h4
  exact h4

theorem sp_no_extension (d : Txt) (h : NoExtension d) : ¬ (extension d = ".h5".toList ∨ extension d = ".nc".toList) := by
  have := sp_extension_suffix d
  rintro (e | e)
  · exact h.1 (e ▸ this)
  · exact h.2 (e ▸ this)

/-- The name of a file with an extension: something else than dots, and then the extension. -/
def WithExtension (stem ext : Txt) : Prop := (∃ c ∈ stem, c ≠ '.') ∧ '/' ∉ stem ∧ (ext = ".h5".toList ∨ ext = ".nc".toList)

theorem sp_dot_take (a r : List Char) (ha : '.' ∉ a) :
    (a ++ '.' :: r).takeWhile (· ≠ '.') = a ∧ (a ++ '.' :: r).dropWhile (· ≠ '.') = '.' :: r := by
  induction a with
  | nil => simp
  | cons c cs ih =>
    have hc : c ≠ '.' := by rintro rfl; exact ha (by simp)
    have := ih (fun h => ha (List.mem_cons_of_mem _ h))
    rw [List.cons_append, List.takeWhile_cons, List.dropWhile_cons, if_pos (by simpa using hc), if_pos (by simpa using hc), this.1, this.2]
    exact ⟨rfl, rfl⟩

theorem sp_extension (d stem ext : Txt) (h : WithExtension stem ext) : extension (inDir d (stem ++ ext)) = ext := by
  obtain ⟨⟨c, hc, hdot⟩, hs, he⟩ := h
  have key : ∀ a : List Char, '.' ∉ a → '/' ∉ a → extension (inDir d (stem ++ '.' :: a)) = '.' :: a := by
    intro a ha hb
    unfold extension inDir
    have e : (d ++ '/' :: (stem ++ '.' :: a)).reverse = (a.reverse ++ '.' :: stem.reverse) ++ '/' :: d.reverse := by simp
    rw [e, sp_takeWhile_rev _ _ (by simp [hs, hb])]
    simp only
    rw [(sp_dot_take _ _ (by simpa using ha)).2, (sp_dot_take _ _ (by simpa using ha)).1]
    simp only
    rw [if_neg]
    · simp
    · intro h
      rw [List.all_eq_true] at h
      have := h c (by simpa using hc)
      simp only [decide_eq_true_eq] at this
      exact hdot this
  rcases he with rfl | rfl
  · exact key "h5".toList (by decide) (by decide)
  · exact key "nc".toList (by decide) (by decide)

theorem sp_write {D : Type} (s s' : Disk D) (p : Txt) (doc : Doc D) (h : writeFile s p doc = .ok s') : OnlyFile s s' p doc := by
  unfold writeFile at h
  split at h
  · cases h
  split at h
  · injection h with h
    subst h
    exact ⟨rfl, by simp, fun q hq => by simp [hq]⟩
  · cases h

theorem sp_write_ok {D : Type} (s : Disk D) (p : Txt) (doc : Doc D) (h1 : p ∉ s.dirs) (h2 : parent p ∈ s.dirs) :
    ∃ s', writeFile s p doc = .ok s' ∧ OnlyFile s s' p doc := by
  have e : writeFile s p doc = .ok { s with files := fun q => if q = p then some doc else s.files q } := by
    unfold writeFile
    rw [if_neg h1, if_pos h2]
  exact ⟨_, e, sp_write _ _ _ _ e⟩

/-! ## The properties -/

variable {D : Type}

/-- C130: whatever is asked, saving a result changes at most one file, the one whose path is returned, which contains the result. -/
theorem C130_one_file (s s' : Disk D) (r : Multi D) (path kind : Option Txt) (file : Txt) (h : r.save s path kind = .ok (s', file)) :
    OnlyFile s s' file (.multi r.names (r.passes.map Heavy.data)) := by
  unfold Multi.save at h
  split at h
  · cases h
  split at h
  · cases h
  split at h
  · cases h
  next s1 hw =>
  injection h with h
  rw [Prod.mk.injEq] at h
  obtain ⟨rfl, rfl⟩ := h
  exact sp_write _ _ _ _ hw

/-- C130: a result saved in a directory whose name does not end as the one of a file is in this directory, under its name. -/
theorem C130_directory_partial (s : Disk D) (r : Multi D) (kind : Option Txt) (d n : Txt) (hd : DirPath d) (hn : FileName n)
    (hname : r.name kind = .ok (some n)) (hex : d ∈ s.dirs) (hx : NoExtension d) (hfree : inDir d n ∉ s.dirs) :
    ∃ s', r.save s (some d) kind = .ok (s', inDir d n) ∧ OnlyFile s s' (inDir d n) (.multi r.names (r.passes.map Heavy.data)) := by
  obtain ⟨s', e, h⟩ := sp_write_ok s (inDir d n) (.multi r.names (r.passes.map Heavy.data)) hfree (by rw [sp_parent d n hn]; exact hex)
  refine ⟨s', ?_, h⟩
  unfold Multi.save
  rw [hname]
  simp only [Multi.place]
  rw [if_neg (sp_no_extension d hx)]
  simp only [joinName]
  rw [sp_join d n hd hn, e]

/-- C130: a result can not be saved in a directory whose name ends with ".h5" or ".nc". -/
theorem C130_directory_fails (s : Disk D) (r : Multi D) (kind : Option Txt) (d stem ext n : Txt) (hx : WithExtension stem ext)
    (hname : r.name kind = .ok (some n)) (hex : inDir d (stem ++ ext) ∈ s.dirs) :
    r.save s (some (inDir d (stem ++ ext))) kind = .error .osError := by
  unfold Multi.save
  rw [hname]
  simp only [Multi.place]
  rw [if_pos (by rw [sp_extension d stem ext hx]; exact hx.2.2)]
  simp only [writeFile]
  rw [if_pos hex]

/-- C130: a path with the extension ".h5" or ".nc" is the path of the file. -/
theorem C130_file (s : Disk D) (r : Multi D) (kind : Option Txt) (d stem ext n : Txt) (hx : WithExtension stem ext)
    (hname : r.name kind = .ok (some n)) (hex : d ∈ s.dirs) (hfree : inDir d (stem ++ ext) ∉ s.dirs) :
    ∃ s', r.save s (some (inDir d (stem ++ ext))) kind = .ok (s', inDir d (stem ++ ext)) ∧
      OnlyFile s s' (inDir d (stem ++ ext)) (.multi r.names (r.passes.map Heavy.data)) := by
  have hn : FileName (stem ++ ext) := by
    obtain ⟨⟨c, hc, -⟩, h1, h2⟩ := hx
    refine ⟨fun h => ?_, ?_⟩
    · rw [List.append_eq_nil_iff] at h
      rw [h.1] at hc
      exact absurd hc (by simp)
    rw [List.mem_append]
    rintro (h | h)
    · exact h1 h
    · rcases h2 with rfl | rfl
      · revert h; decide
      · revert h; decide
  obtain ⟨s', e, h⟩ := sp_write_ok s (inDir d (stem ++ ext)) (.multi r.names (r.passes.map Heavy.data)) hfree
    (by rw [sp_parent d _ hn]; exact hex)
  refine ⟨s', ?_, h⟩
  unfold Multi.save
  rw [hname]
  simp only [Multi.place]
  rw [if_pos (by rw [sp_extension d stem ext hx]; exact hx.2.2)]
  simp only
  rw [e]

/-- C130: without path, a result is saved in the current directory, under its name. -/
theorem C130_current (s : Disk D) (r : Multi D) (kind : Option Txt) (n : Txt) (hn : FileName n) (hname : r.name kind = .ok (some n))
    (hex : [] ∈ s.dirs) (hfree : n ∉ s.dirs) :
    ∃ s', r.save s none kind = .ok (s', n) ∧ OnlyFile s s' n (.multi r.names (r.passes.map Heavy.data)) := by
  obtain ⟨s', e, h⟩ := sp_write_ok s n (.multi r.names (r.passes.map Heavy.data)) hfree (by rw [sp_parent_name n hn]; exact hex)
  refine ⟨s', ?_, h⟩
  unfold Multi.save
  rw [hname]
  simp only [Multi.place]
  rw [e]

/-- C130: what is loaded from the path which has been returned is what has been saved, with the names of the images; it remembers the name of
its file. -/
theorem C130_load (s s' : Disk D) (r : Multi D) (path kind : Option Txt) (file : Txt) (h : r.save s path kind = .ok (s', file)) :
    ∃ r', loadMulti s' file = .ok r' ∧ r'.passes.map Heavy.data = r.passes.map Heavy.data ∧
      (∀ p ∈ r'.passes, p.couple.names = r.names) ∧ r'.fileName = some (SavePiv.baseName file) := by
  obtain ⟨-, h1, -⟩ := C130_one_file s s' r path kind file h
  refine ⟨⟨(r.passes.map Heavy.data).map fun d => ⟨⟨r.names, none⟩, d⟩, some (SavePiv.baseName file)⟩, ?_, ?_, ?_, rfl⟩
  · unfold loadMulti
    rw [h1]
  · simp [Function.comp_def]
  · intro p hp
    simp only [List.mem_map] at hp
    obtain ⟨x, -, rfl⟩ := hp
    rfl

/-- C130: a result which has been loaded from a directory and is saved in this directory is saved in the same file, whatever the kind which
is asked; the content of the disk does not change. -/
theorem C130_save_again (s : Disk D) (d n : Txt) (kind : Option Txt) (names : List Txt) (ds : List D) (hne : ds ≠ []) (hd : DirPath d)
    (hn : FileName n) (hx : NoExtension d) (hex : d ∈ s.dirs) (hfree : inDir d n ∉ s.dirs) (hf : s.files (inDir d n) = some (.multi names ds)) :
    ∃ r s', loadMulti s (inDir d n) = .ok r ∧ r.save s (some d) kind = .ok (s', inDir d n) ∧ s'.dirs = s.dirs ∧ ∀ q, s'.files q = s.files q := by
  have hl : loadMulti s (inDir d n) = .ok ⟨ds.map fun d => ⟨⟨names, none⟩, d⟩, some n⟩ := by
    unfold loadMulti
    rw [hf]
    simp only
    rw [sp_base d n hn]
  obtain ⟨s', h1, h2, h3, h4⟩ := C130_directory_partial s ⟨ds.map fun d => ⟨⟨names, none⟩, d⟩, some n⟩ kind d n hd hn rfl hex hx hfree
  refine ⟨_, s', hl, h1, h2, fun q => ?_⟩
  by_cases hq : q = inDir d n
  · subst hq
    rw [h3, hf]
    cases ds with
    | nil => exact absurd rfl hne
    | cons x xs => simp [Multi.names, Function.comp_def]
  · exact h4 q hq

/-- C130: a result which has been loaded from a directory and is saved without path is not saved where it was: it goes in the current
directory. -/
theorem C130_save_back_fails (s : Disk D) (d n : Txt) (names : List Txt) (ds : List D) (hn : FileName n) (hcur : [] ∈ s.dirs) (hfree : n ∉ s.dirs)
    (hf : s.files (inDir d n) = some (.multi names ds)) :
    ∃ r s', loadMulti s (inDir d n) = .ok r ∧ r.save s none none = .ok (s', n) ∧ n ≠ inDir d n ∧
      s'.files (inDir d n) = s.files (inDir d n) := by
  have hl : loadMulti s (inDir d n) = .ok ⟨ds.map fun d => ⟨⟨names, none⟩, d⟩, some n⟩ := by
    unfold loadMulti
    rw [hf]
    simp only
    rw [sp_base d n hn]
  obtain ⟨s', h1, h2, h3, h4⟩ := C130_current s ⟨ds.map fun d => ⟨⟨names, none⟩, d⟩, some n⟩ none n hn rfl hcur hfree
  have hne : n ≠ inDir d n := by
    intro e
    have := congrArg List.length e
    simp [inDir] at this
    omega
  exact ⟨_, s', hl, h1, hne, h4 _ (Ne.symm hne)⟩

/-- C130: the result of one pass is saved in the directory, under its name. -/
theorem C130_one_pass (s : Disk D) (r : Heavy D) (kind : Option Txt) (d n : Txt) (hd : DirPath d) (hn : FileName n)
    (hname : r.name kind = .ok (some n)) (hex : d ∈ s.dirs) (hfree : inDir d n ∉ s.dirs) :
    ∃ s', r.save s (some d) kind = .ok (s', inDir d n) ∧ OnlyFile s s' (inDir d n) (.heavy r.couple.names r.data) := by
  obtain ⟨s', e, h⟩ := sp_write_ok s (inDir d n) (.heavy r.couple.names r.data) hfree (by rw [sp_parent d n hn]; exact hex)
  refine ⟨s', ?_, h⟩
  unfold Heavy.save
  rw [hname]
  simp only [placeIn, joinName]
  rw [sp_join d n hd hn, e]

/-- C130: the result of one pass can not be saved in a file which is chosen: its name is added to the path, and there is no such directory. -/
theorem C130_one_pass_file_fails (s : Disk D) (r : Heavy D) (kind : Option Txt) (path n : Txt) (hp : DirPath path) (hn : FileName n)
    (hname : r.name kind = .ok (some n)) (hfree : path ∉ s.dirs) : ∃ e, r.save s (some path) kind = .error e := by
  unfold Heavy.save
  rw [hname]
  simp only [placeIn, joinName]
  rw [sp_join path n hp hn]
  unfold writeFile
  rw [sp_parent path n hn, if_neg hfree]
  split
  · next e he => exact ⟨e, rfl⟩
  next s' he =>
  split at he <;> cases he

/-- C130: the result of one pass which has been loaded can not be saved. -/
theorem C130_one_pass_loaded_fails (s : Disk D) (file : Txt) (r : Heavy D) (path kind : Option Txt) (h : loadHeavy s file = .ok r) :
    r.save s path kind = .error .attributeError := by
  have : r.couple.attrs = none := by
    unfold loadHeavy at h
    split at h
    · cases h
    · injection h with h; rw [← h]
    · injection h with h; rw [← h]
    · cases h
  unfold Heavy.save Heavy.name
  rw [this]

/-- C130: an unknown kind is an error which has nothing to do with it. -/
theorem C130_kind_fails (s : Disk D) (r : Heavy D) (path : Option Txt) (kind : Txt) (hk : kind ≠ "bos".toList) (a : Txt × Option SavePiv.Serie)
    (ha : r.couple.attrs = some a) : r.save s path (some kind) = .error .typeError := by
  obtain ⟨x, y⟩ := a
  unfold Heavy.save Heavy.name
  rw [ha]
  simp only
  rw [if_neg hk]
  cases path <;> rfl

/-- C130: the names which are given to the results of new computations: the couple of arrays is called by the names of the arrays, the couple
of a serie by `get_name_piv`, and the couple of the background oriented Schlieren by the name of its second image. -/
theorem C130_names (d : D) (names : List Txt) (name : Txt) (s : SavePiv.Serie) :
    (Heavy.mk ⟨names, some (name, none)⟩ d).name none = .ok (some (name ++ ".h5".toList)) ∧
    (∀ n, s.pivName = .ok n → (Heavy.mk ⟨names, some (name, some s)⟩ d).name none = .ok (some n)) ∧
    (∀ e core, s.ext = some e → name = s.baseName ++ core ++ ('.' :: e) →
      (Heavy.mk ⟨names, some (name, some s)⟩ d).name (some "bos".toList) = .ok (some ("bos".toList ++ core ++ ".h5".toList))) := by
  refine ⟨rfl, fun n hn => ?_, fun e core he hname => ?_⟩
  · unfold Heavy.name
    simp only [hn]
  · unfold Heavy.name
    simp only [if_true]
    unfold nameBos dropLastN
    rw [he, hname]
    simp

/-! ## Light results -/

/-- C130: the light result of a result which has been loaded is saved beside it, under the name of its file followed by "_light", and the
file which has been loaded does not change. -/
theorem C130_light (light : D → D) (s : Disk D) (d stem : Txt) (hst : '/' ∉ stem) (hd : DirPath d) (names : List Txt) (ds : List D)
    (hex : d ∈ s.dirs) (hfree : inDir d (stem ++ "_light.h5".toList) ∉ s.dirs)
    (hf : s.files (inDir d (stem ++ ".h5".toList)) = some (.multi names ds)) (ind : Nat) (x : D) (hi : ds[ind]? = some x) :
    ∃ r l s', loadMulti s (inDir d (stem ++ ".h5".toList)) = .ok r ∧ r.light light ind = .ok l ∧ l.save s (some d) = .ok s' ∧
      OnlyFile s s' (inDir d (stem ++ "_light.h5".toList)) (.light names (light x)) ∧
      s'.files (inDir d (stem ++ ".h5".toList)) = s.files (inDir d (stem ++ ".h5".toList)) := by
  have hn1 : FileName (stem ++ ".h5".toList) := ⟨by simp, by
    rw [List.mem_append]; rintro (h | h)
    · exact hst h
    · revert h; decide⟩
  have hn2 : FileName (stem ++ "_light.h5".toList) := ⟨by simp, by
    rw [List.mem_append]; rintro (h | h)
    · exact hst h
    · revert h; decide⟩
  have hl : loadMulti s (inDir d (stem ++ ".h5".toList)) = .ok ⟨ds.map fun d => ⟨⟨names, none⟩, d⟩, some (stem ++ ".h5".toList)⟩ := by
    unfold loadMulti
    rw [hf]
    simp only
    rw [sp_base d _ hn1]
  obtain ⟨s', e, h⟩ := sp_write_ok s (inDir d (stem ++ "_light.h5".toList)) (.light names (light x)) hfree
    (by rw [sp_parent d _ hn2]; exact hex)
  refine ⟨_, ⟨⟨names, none⟩, light x, some (stem ++ ".h5".toList)⟩, s', hl, ?_, ?_, h, ?_⟩
  · unfold Multi.light
    simp only [List.getElem?_map, hi, Option.map_some]
  · unfold Light.save Light.name
    simp only [placeIn, joinName]
    have e3 : dropLastN 3 (stem ++ ".h5".toList) = stem := by
      unfold dropLastN
      simp
    rw [e3, sp_join d _ hd hn2, e]
  · refine h.2.2 _ ?_
    unfold inDir
    intro e
    have := congrArg List.length e
    simp at this

/-- C130: the light results of a file of passes and of a file of uvmat with the same name have the same file. -/
theorem C130_light_fails (c : SavePiv.Couple) (x y : D) (stem : Txt) :
    (Light.mk c x (some (stem ++ ".h5".toList))).name = (Light.mk c y (some (stem ++ ".nc".toList))).name := by
  unfold Light.name dropLastN
  simp

/-- C130: a light result which has been loaded can not be saved, nor the light result of a couple of arrays. -/
theorem C130_light_loaded_fails (light : D → D) (s : Disk D) (file : Txt) (l : Light D) (path : Option Txt) (h : loadLight light s file = .ok l) :
    l.save s path = .error .attributeError := by
  have : l.fileName = none ∧ l.couple.attrs = none := by
    unfold loadLight at h
    split at h
    · cases h
    · injection h with h; rw [← h]; exact ⟨rfl, rfl⟩
    · injection h with h; rw [← h]; exact ⟨rfl, rfl⟩
    · split at h
      · cases h
      · injection h with h; rw [← h]; exact ⟨rfl, rfl⟩
    · cases h
  unfold Light.save Light.name
  rw [this.1, this.2]

theorem C130_light_arrays_fails (s : Disk D) (names : List Txt) (name : Txt) (d : D) (path : Option Txt) :
    (Light.mk ⟨names, some (name, none)⟩ d none).save s path = .error .attributeError := rfl

/-! ## Concrete cases -/

/-- A disk with the current directory, a directory of results and a file of two passes. -/
def demoDisk : SavePiv.Disk Nat where
  dirs := [[], "im.piv".toList]
  files p := if p = "im.piv/piv_0-1.h5".toList then some (.multi ["a".toList, "b".toList] [1, 2]) else none

def demoMulti : Multi Nat := ⟨[⟨⟨["a.png".toList, "b.png".toList], some ("a.png-b.png".toList, some ⟨.ok "piv_a-b.h5".toList, [], some "png".toList, .ok (['a'], ['b'])⟩)⟩, 7⟩], none⟩

example : DirPath "im.piv".toList ∧ FileName "piv_a-b.h5".toList ∧ demoMulti.name none = .ok (some "piv_a-b.h5".toList) ∧
    "im.piv".toList ∈ demoDisk.dirs ∧ inDir "im.piv".toList "piv_a-b.h5".toList ∉ demoDisk.dirs := by
  refine ⟨⟨by decide, by decide⟩, ⟨by decide, by decide⟩, rfl, by decide, by decide⟩

example : NoExtension "im.piv".toList := ⟨by decide, by decide⟩

example : WithExtension "r".toList ".h5".toList := ⟨⟨'r', by decide, by decide⟩, by decide, Or.inl rfl⟩

example : demoDisk.files (inDir "im.piv".toList ("piv_0-1".toList ++ ".h5".toList)) = some (.multi ["a".toList, "b".toList] [1, 2]) := by
  unfold demoDisk
  simp [inDir]

example : extension ".h5".toList = [] ∧ extension "a/b.c/d".toList = [] ∧ extension "x.h5/..nc".toList = [] := by decide

end Verif
