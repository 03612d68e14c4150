import Verif.Model.Graphviz
import Mathlib.Data.List.Nodup
import Mathlib.Tactic.Tauto

/-!
# The graph of a topology (C142)
-/

namespace Verif
open Verif.Graphviz

/-! ## Specification: reading a file of graphviz -/

namespace Graphviz

/-- A text between quotes at the beginning of a text, and what follows. -/
def readQuoted : Txt → Option (Txt × Txt)
  | '"' :: s => match s.dropWhile (· != '"') with
    | _ :: r => some (s.takeWhile (· != '"'), r)
    | [] => none
  | _ => none

def skip (s : Txt) : Txt := s.dropWhile (· == ' ')

/-- The value of an attribute: what is between quotes after the first `key = `. -/
def attr (key : Txt) : Txt → Option Txt
  | [] => none
  | c :: s => if (key ++ " = ".toList).isPrefixOf (c :: s) then (readQuoted ((c :: s).drop (key.length + 3))).map Prod.fst else attr key s

/-- A link of the graph. -/
structure Link where
  src : Txt
  dst : Txt
  arrow : Txt
  style : Txt
  color : Txt
deriving DecidableEq

/-- A line `"src" -> "dst" [arrowhead = "...", style = "...", color = "..."]`. -/
def readLink (line : Txt) : Option Link :=
  match readQuoted (skip line) with
  | none => none
  | some (a, r) =>
    match skip r with
    | '-' :: '>' :: r =>
      match readQuoted (skip r) with
      | none => none
      | some (b, r) =>
        match attr "arrowhead".toList r, attr "style".toList r, attr "color".toList r with
        | some x, some y, some z => some ⟨a, b, x, y, z⟩
        | _, _, _ => none
    | _ => none

/-- A node of the graph: its identifier, its label and its colour. -/
structure Node where
  id : Txt
  label : Txt
  color : Option Txt
deriving DecidableEq

/-- A line `"id" [label="..." ...]`. -/
def readNode (line : Txt) : Option Node :=
  match readQuoted (skip line) with
  | none => none
  | some (a, r) =>
    if "[label=".toList.isPrefixOf (skip r) then
      match readQuoted ((skip r).drop 7) with
      | none => none
      | some (l, r) => some ⟨a, l, attr "color".toList r⟩
    else none

/-- The links of a file. -/
def linksOf (c : Txt) : List Link := (Text.splitChar '\n' c).filterMap readLink

/-- The nodes of a file. -/
def nodesOf (c : Txt) : List Node := (Text.splitChar '\n' c).filterMap readNode

/-- The text shown in the first field of a record `<port> text|...`. -/
def title (label : Txt) : Txt := ((label.dropWhile (· != '>')).drop 2).takeWhile (· != '|')

/-- A name without the characters which have a meaning for graphviz. -/
def Plain (s : Txt) : Prop := ∀ c ∈ s, c ≠ '"' ∧ c ≠ '\n' ∧ c ≠ '\\' ∧ c ≠ '|' ∧ c ≠ '{' ∧ c ≠ '}' ∧ c ≠ '<' ∧ c ≠ '>'

/-- The work has the kind `x`. -/
def Kind.Is (k : Kind) (x : Txt) : Prop :=
  match k with
  | .none => False
  | .text s => ∃ a b, s = a ++ x ++ b
  | .seq l => x ∈ l

/-- The queues of an argument. -/
def queuesOf : Option QueueArg → List QueueObj
  | none => []
  | some (.one q) => [q]
  | some (.many l) => l

/-- The queues of a work are given as a queue or as a tuple (not as a lone list). -/
def Drawable (w : WorkObj) : Prop := ∀ q, (w.input = some (.one q) ∨ w.output = some (.one q)) → q.isList = false

/-- All the names of a topology are plain. -/
structure PlainNames (t : Topo) : Prop where
  queues : ∀ q ∈ t.queues, Plain q.name
  works : ∀ w ∈ t.works, Plain w.name ∧ (∀ q ∈ queuesOf w.input, Plain q.name) ∧ ∀ q ∈ queuesOf w.output, Plain q.name

/-- The link is drawn as the links of the work have to be drawn. -/
structure DrawnFor (w : WorkObj) (l : Link) : Prop where
  global : l.arrow = "odiamond".toList ∧ w.kind.Is "global".toList ∨ l.arrow = "normal".toList ∧ ¬ w.kind.Is "global".toList
  oneShot : l.style = "filled".toList ∧ w.kind.Is "one shot".toList ∨ l.style = "dashed".toList ∧ ¬ w.kind.Is "one shot".toList
  io : l.color = "Green".toList ∧ w.kind.Is "io".toList ∨ l.color = "Black".toList ∧ ¬ w.kind.Is "io".toList

end Graphviz

/-! ## Reading -/

namespace Graphviz

theorem gv_split (sep : Char) (r : Txt) : ∀ s : Txt, Text.splitChar sep (s ++ sep :: r) = Text.splitChar sep s ++ Text.splitChar sep r
  | [] => by simp [Text.splitChar]
  | c :: s => by
    have ih := gv_split sep r s
    rw [List.cons_append]
    by_cases h : (c == sep) = true
    · simp only [Text.splitChar, h, if_true, ih, List.cons_append]
    · have hne : ∃ p ps, Text.splitChar sep s = p :: ps := by
        cases s with
        | nil => exact ⟨_, _, rfl⟩
        | cons d s =>
          unfold Text.splitChar
          split
          · exact ⟨_, _, rfl⟩
          · split
            · exact ⟨_, _, rfl⟩
            · exact ⟨_, _, rfl⟩
      obtain ⟨p, ps, e⟩ := hne
      rw [e, List.cons_append] at ih
      have h' : (c == sep) = false := by simpa using h
      simp only [Text.splitChar, h', Bool.false_eq_true, if_false, ih, e, List.cons_append]

theorem gv_plain_line (sep : Char) : ∀ s : Txt, sep ∉ s → Text.splitChar sep s = [s]
  | [], _ => rfl
  | c :: s, h => by
    have h1 : (c == sep) = false := by
      have : c ≠ sep := fun e => h (by rw [e]; exact List.mem_cons_self)
      simpa using this
    have := gv_plain_line sep s (fun hh => h (List.mem_cons_of_mem _ hh))
    simp only [Text.splitChar, h1, Bool.false_eq_true, if_false, this]

variable {β : Type} (f : Txt → Option β)

/-- Reading the lines of a text. -/
def reading (s : Txt) : List β := (Text.splitChar '\n' s).filterMap f

/-- The text is made of whole lines. -/
def Whole (s : Txt) : Prop := s = [] ∨ ∃ s', s = s' ++ ['\n']

theorem reading_append (hf : f [] = none) (s r : Txt) (h : Whole s) : reading f (s ++ r) = reading f s ++ reading f r := by
  unfold reading
  rcases h with rfl | ⟨s', rfl⟩
  · simp [Text.splitChar, hf]
  · rw [List.append_assoc, List.singleton_append, gv_split, gv_split]
    simp [Text.splitChar, hf]

theorem Whole.append {s r : Txt} (hs : Whole s) (hr : Whole r) : Whole (s ++ r) := by
  rcases hr with rfl | ⟨r', rfl⟩
  · rw [List.append_nil]; exact hs
  · exact .inr ⟨s ++ r', by rw [List.append_assoc]⟩

theorem Whole.flatMap {α : Type} (g : α → Txt) : ∀ l : List α, (∀ a ∈ l, Whole (g a)) → Whole (l.flatMap g)
  | [], _ => .inl rfl
  | a :: l, h => by
    rw [List.flatMap_cons]
    exact (h a List.mem_cons_self).append (Whole.flatMap g l fun b hb => h b (List.mem_cons_of_mem _ hb))

theorem reading_flatMap {α : Type} (hf : f [] = none) (g : α → Txt) : ∀ l : List α, (∀ a ∈ l, Whole (g a)) →
    reading f (l.flatMap g) = l.flatMap fun a => reading f (g a)
  | [], _ => by simp [reading, Text.splitChar, hf]
  | a :: l, h => by
    rw [List.flatMap_cons, List.flatMap_cons, reading_append f hf _ _ (h a List.mem_cons_self),
      reading_flatMap hf g l fun b hb => h b (List.mem_cons_of_mem _ hb)]

theorem reading_line (hf : f [] = none) (s : Txt) (h : '\n' ∉ s) : reading f (s ++ ['\n']) = (f s).toList := by
  unfold reading
  rw [gv_split, gv_plain_line _ s h]
  cases hs : f s <;> simp [Text.splitChar, hf, hs]

theorem readQuoted_quote (name r : Txt) (h : Plain name) : readQuoted (quote name ++ r) = some (name, r) := by
  have hp : ∀ c ∈ name, (c != '"') = true := fun c hc => by simpa using (h c hc).1
  unfold quote
  rw [List.cons_append, List.cons_append, List.append_assoc, List.singleton_append]
  unfold readQuoted
  have e1 : (name ++ '"' :: r).dropWhile (· != '"') = '"' :: r := by
    rw [List.dropWhile_append_of_pos hp]
    rfl
  have e2 : (name ++ '"' :: r).takeWhile (· != '"') = name := by
    rw [List.takeWhile_append_of_pos hp]
    simp
  simp only [e1, e2]

theorem skip_pad (name r : Txt) (h : r.head? ≠ some ' ') (hr : r ≠ []) :
    ∃ k, pad40 (quote name) ++ ' ' :: r = quote name ++ (List.replicate k ' ' ++ r) ∧ skip (List.replicate k ' ' ++ r) = r := by
  refine ⟨40 - (quote name).length + 1, ?_, ?_⟩
  · unfold pad40
    rw [List.replicate_succ', List.append_assoc, List.append_assoc, List.singleton_append]
  · unfold skip
    rw [List.dropWhile_append_of_pos (by intro a ha; rw [List.eq_of_mem_replicate ha]; rfl)]
    cases r with
    | nil => exact absurd rfl hr
    | cons c r =>
      rw [List.dropWhile_cons_of_neg]
      intro hc
      apply h
      rw [beq_iff_eq] at hc
      rw [hc]
      rfl

theorem skip_quote (name r : Txt) : skip (quote name ++ r) = quote name ++ r := by
  unfold skip quote
  rw [List.cons_append, List.cons_append, List.dropWhile_cons_of_neg (by decide)]

theorem Plain.noNewline {s : Txt} (h : Plain s) : '\n' ∉ s := fun hh => (h _ hh).2.1 rfl

theorem quote_noNewline {s : Txt} (h : Plain s) : '\n' ∉ pad40 (quote s) := by
  unfold pad40 quote
  simp only [List.mem_append, List.mem_cons, List.not_mem_nil, List.mem_replicate, not_or]
  refine ⟨⟨⟨by decide, h.noNewline⟩, by decide, not_false⟩, ?_⟩
  rintro ⟨_, hh⟩
  exact absurd hh (by decide)

/-- The end of a line of link. -/
def linkEnd (arrow style color : Txt) : Txt :=
  " [arrowhead = \"".toList ++ arrow ++ "\", style = \"".toList ++ style ++ "\", color = \"".toList ++ color ++ "\"]".toList

theorem linkLine_eq (src dst arrow style color : Txt) : linkLine src dst arrow style color =
    (pad40 (quote src) ++ ' ' :: ('-' :: '>' :: ' ' :: (quote dst ++ linkEnd arrow style color))) ++ ['\n'] := by
  have e1 : " -> \"".toList = [' ', '-', '>', ' ', '"'] := by decide
  have e2 : "\" [arrowhead = \"".toList = '"' :: " [arrowhead = \"".toList := by decide
  have e3 : "\"]\n".toList = "\"]".toList ++ ['\n'] := by decide
  unfold linkLine linkEnd
  rw [e1, e2, e3]
  unfold quote
  simp only [List.append_assoc, List.cons_append, List.nil_append, List.singleton_append]

theorem linkLine_whole (src dst arrow style color : Txt) : Whole (linkLine src dst arrow style color) :=
  .inr ⟨_, linkLine_eq src dst arrow style color⟩

/-- What is drawn for a work. -/
theorem attrs_of (w : WorkObj) : attr "arrowhead".toList (linkEnd (arrowOf w) (styleOf w) (colorOf w)) = some (arrowOf w) ∧
    attr "style".toList (linkEnd (arrowOf w) (styleOf w) (colorOf w)) = some (styleOf w) ∧
    attr "color".toList (linkEnd (arrowOf w) (styleOf w) (colorOf w)) = some (colorOf w) ∧
    '\n' ∉ linkEnd (arrowOf w) (styleOf w) (colorOf w) := by
  unfold arrowOf styleOf colorOf
  cases w.kind.has "global".toList <;> cases w.kind.has "one shot".toList <;> cases w.kind.has "io".toList <;>
    simp only [if_true, Bool.false_eq_true, if_false] <;> decide +kernel

theorem readLink_line (w : WorkObj) (src dst : Txt) (hs : Plain src) (hd : Plain dst) :
    reading readLink (linkLine src dst (arrowOf w) (styleOf w) (colorOf w)) = [⟨src, dst, arrowOf w, styleOf w, colorOf w⟩] ∧
    reading readNode (linkLine src dst (arrowOf w) (styleOf w) (colorOf w)) = [] := by
  obtain ⟨a1, a2, a3, a4⟩ := attrs_of w
  rw [linkLine_eq]
  generalize linkEnd (arrowOf w) (styleOf w) (colorOf w) = L at *
  have hn : '\n' ∉ pad40 (quote src) ++ ' ' :: ('-' :: '>' :: ' ' :: (quote dst ++ L)) := by
    intro hh
    rcases List.mem_append.1 hh with hh | hh
    · exact quote_noNewline hs hh
    · simp only [List.mem_cons] at hh
      rcases hh with hh | hh | hh | hh | hh
      · exact absurd hh (by decide)
      · exact absurd hh (by decide)
      · exact absurd hh (by decide)
      · exact absurd hh (by decide)
      · rcases List.mem_append.1 hh with hh | hh
        · exact quote_noNewline hd (by unfold pad40; exact List.mem_append_left _ hh)
        · exact a4 hh
  obtain ⟨k, e1, e2⟩ := skip_pad src ('-' :: '>' :: ' ' :: (quote dst ++ L)) (by simp) (by simp)
  have e3 : skip (' ' :: (quote dst ++ L)) = quote dst ++ L := by
    unfold skip
    rw [List.dropWhile_cons_of_pos (by decide)]
    exact skip_quote dst L
  refine ⟨?_, ?_⟩
  · rw [reading_line readLink (by decide +kernel) _ hn, e1]
    unfold readLink
    simp only [skip_quote, readQuoted_quote src _ hs, e2, e3, readQuoted_quote dst _ hd, a1, a2, a3]
    rfl
  · rw [reading_line readNode (by decide +kernel) _ hn, e1]
    unfold readNode
    simp only [skip_quote, readQuoted_quote src _ hs, e2]
    have : "[label=".toList.isPrefixOf ('-' :: '>' :: ' ' :: (quote dst ++ L)) = false := by
      have : "[label=".toList = ['[', 'l', 'a', 'b', 'e', 'l', '='] := by decide
      rw [this]
      rfl
    rw [this]
    rfl

theorem queueLine_eq (q : QueueObj) : queueLine q =
    (pad40 (quote q.name) ++ ' ' :: ("[label=".toList ++ (quote ("<f0> ".toList ++ q.name ++ "|<f1>|<f2>|<f3>|<f4>".toList) ++ "]".toList))) ++ ['\n'] := by
  have e1 : " [label=\"<f0> ".toList = ' ' :: ("[label=".toList ++ '"' :: "<f0> ".toList) := by decide
  have e2 : "|<f1>|<f2>|<f3>|<f4>\"]\n".toList = "|<f1>|<f2>|<f3>|<f4>".toList ++ ('"' :: "]".toList ++ ['\n']) := by decide
  unfold queueLine
  rw [e1, e2]
  unfold quote
  simp only [List.append_assoc, List.cons_append, List.nil_append, List.singleton_append]

theorem workLine_eq (w : WorkObj) : workLine w =
    (pad40 (quote w.name) ++ ' ' :: ("[label=".toList ++ (quote w.name ++ (",color = \"".toList ++ colorOf w ++ "\"]".toList)))) ++ ['\n'] := by
  have e1 : " [label=\"".toList = ' ' :: ("[label=".toList ++ ['"']) := by decide
  have e2 : "\",color = \"".toList = '"' :: ",color = \"".toList := by decide
  have e3 : "\"]\n".toList = "\"]".toList ++ ['\n'] := by decide
  unfold workLine
  rw [e1, e2, e3]
  unfold quote
  simp only [List.append_assoc, List.cons_append, List.nil_append, List.singleton_append]

/-- A line of a node. -/
theorem readNode_line (name label rest : Txt) (hn : Plain name) (hl : ∀ c ∈ label, c ≠ '"' ∧ c ≠ '\n') (hr : '\n' ∉ rest) :
    reading readNode ((pad40 (quote name) ++ ' ' :: ("[label=".toList ++ (quote label ++ rest))) ++ ['\n']) =
      [⟨name, label, attr "color".toList rest⟩] ∧
    reading readLink ((pad40 (quote name) ++ ' ' :: ("[label=".toList ++ (quote label ++ rest))) ++ ['\n']) = [] := by
  have el : "[label=".toList = ['[', 'l', 'a', 'b', 'e', 'l', '='] := by decide
  have hq : readQuoted (quote label ++ rest) = some (label, rest) := by
    have hp : ∀ c ∈ label, (c != '"') = true := fun c hc => by simpa using (hl c hc).1
    unfold quote
    rw [List.cons_append, List.cons_append, List.append_assoc, List.singleton_append]
    unfold readQuoted
    have e1 : (label ++ '"' :: rest).dropWhile (· != '"') = '"' :: rest := by
      rw [List.dropWhile_append_of_pos hp]
      rfl
    have e2 : (label ++ '"' :: rest).takeWhile (· != '"') = label := by
      rw [List.takeWhile_append_of_pos hp]
      simp
    simp only [e1, e2]
  have hno : '\n' ∉ pad40 (quote name) ++ ' ' :: ("[label=".toList ++ (quote label ++ rest)) := by
    intro hh
    rcases List.mem_append.1 hh with hh | hh
    · exact quote_noNewline hn hh
    · rcases List.mem_cons.1 hh with hh | hh
      · exact absurd hh (by decide)
      · rcases List.mem_append.1 hh with hh | hh
        · exact absurd hh (by rw [el]; decide)
        · rcases List.mem_append.1 hh with hh | hh
          · unfold quote at hh
            simp only [List.cons_append, List.mem_cons, List.mem_append, List.not_mem_nil, or_false] at hh
            rcases hh with hh | hh | hh
            · exact absurd hh (by decide)
            · exact (hl _ hh).2 rfl
            · exact absurd hh (by decide)
          · exact hr hh
  obtain ⟨k, e1, e2⟩ := skip_pad name ("[label=".toList ++ (quote label ++ rest)) (by rw [el]; simp) (by rw [el]; simp)
  refine ⟨?_, ?_⟩
  · rw [reading_line readNode (by decide +kernel) _ hno, e1]
    unfold readNode
    have hpre : "[label=".toList.isPrefixOf ("[label=".toList ++ (quote label ++ rest)) = true := by
      rw [List.isPrefixOf_iff_prefix]
      exact List.prefix_append _ _
    have hdrop : ("[label=".toList ++ (quote label ++ rest)).drop 7 = quote label ++ rest := by rw [el]; rfl
    simp only [skip_quote, readQuoted_quote name _ hn, e2, hpre, if_true, hdrop, hq]
    rfl
  · rw [reading_line readLink (by decide +kernel) _ hno, e1]
    unfold readLink
    simp only [skip_quote, readQuoted_quote name _ hn, e2]
    rw [el]
    rfl

theorem queue_read (q : QueueObj) (h : Plain q.name) : reading readLink (queueLine q) = [] ∧
    reading readNode (queueLine q) = [⟨q.name, "<f0> ".toList ++ q.name ++ "|<f1>|<f2>|<f3>|<f4>".toList, none⟩] := by
  have := readNode_line q.name ("<f0> ".toList ++ q.name ++ "|<f1>|<f2>|<f3>|<f4>".toList) "]".toList h (by
    intro c hc
    rcases List.mem_append.1 hc with hc | hc
    · rcases List.mem_append.1 hc with hc | hc
      · exact (show ∀ c ∈ "<f0> ".toList, c ≠ '"' ∧ c ≠ '\n' by decide) c hc
      · exact ⟨(h c hc).1, (h c hc).2.1⟩
    · exact (show ∀ c ∈ "|<f1>|<f2>|<f3>|<f4>".toList, c ≠ '"' ∧ c ≠ '\n' by decide) c hc) (by decide)
  rw [queueLine_eq]
  exact ⟨this.2, this.1⟩

theorem work_read (w : WorkObj) (h : Plain w.name) : reading readLink (workLine w) = [] ∧
    reading readNode (workLine w) = [⟨w.name, w.name, some (colorOf w)⟩] := by
  have hc : attr "color".toList (",color = \"".toList ++ colorOf w ++ "\"]".toList) = some (colorOf w) ∧
      '\n' ∉ ",color = \"".toList ++ colorOf w ++ "\"]".toList := by
    unfold colorOf
    cases w.kind.has "io".toList <;> simp only [if_true, Bool.false_eq_true, if_false] <;> decide +kernel
  have := readNode_line w.name w.name (",color = \"".toList ++ colorOf w ++ "\"]".toList) h (fun c hc => ⟨(h c hc).1, (h c hc).2.1⟩) hc.2
  rw [workLine_eq]
  rw [hc.1] at this
  exact ⟨this.2, this.1⟩

theorem drawn_ok {a : Option QueueArg} (h : ∀ q, a = some (.one q) → q.isList = false) : drawnQueues a = .ok (queuesOf a) := by
  unfold drawnQueues queuesOf
  cases a with
  | none => rfl
  | some a =>
    cases a with
    | one q => simp only [h q rfl, if_true]
    | many l => rfl

/-- The links of a work. -/
def linksFor (w : WorkObj) : List Link :=
  ((queuesOf w.input).map fun q => ⟨q.name, w.name, arrowOf w, styleOf w, colorOf w⟩) ++
    (queuesOf w.output).map fun q => ⟨w.name, q.name, arrowOf w, styleOf w, colorOf w⟩

theorem flatMap_single {α γ : Type} (g : α → List γ) (f : α → γ) : ∀ l : List α, (∀ a ∈ l, g a = [f a]) → l.flatMap g = l.map f
  | [], _ => rfl
  | a :: l, h => by
    rw [List.flatMap_cons, List.map_cons, h a List.mem_cons_self, flatMap_single g f l fun b hb => h b (List.mem_cons_of_mem _ hb)]
    rfl

theorem flatMap_none {α γ : Type} (g : α → List γ) (l : List α) (h : ∀ a ∈ l, g a = []) : l.flatMap g = [] :=
  List.flatMap_eq_nil_iff.2 h

theorem allLinks_read : ∀ ws : List WorkObj, (∀ w ∈ ws, Drawable w) →
    (∀ w ∈ ws, Plain w.name ∧ (∀ q ∈ queuesOf w.input, Plain q.name) ∧ ∀ q ∈ queuesOf w.output, Plain q.name) →
    ∃ l, allLinks ws = .ok l ∧ Whole l ∧ reading readLink l = ws.flatMap linksFor ∧ reading readNode l = []
  | [], _, _ => ⟨[], rfl, .inl rfl, by decide +kernel, by decide +kernel⟩
  | w :: ws, hd, hp => by
    obtain ⟨l, e1, e2, e3, e4⟩ := allLinks_read ws (fun v hv => hd v (List.mem_cons_of_mem _ hv)) (fun v hv => hp v (List.mem_cons_of_mem _ hv))
    have hw := hd w List.mem_cons_self
    obtain ⟨p1, p2, p3⟩ := hp w List.mem_cons_self
    have hwl : workLinks w = .ok (((queuesOf w.input).flatMap fun q => linkLine q.name w.name (arrowOf w) (styleOf w) (colorOf w)) ++
        (queuesOf w.output).flatMap fun q => linkLine w.name q.name (arrowOf w) (styleOf w) (colorOf w)) := by
      unfold workLinks
      rw [drawn_ok fun q hq => hw q (.inl hq), drawn_ok fun q hq => hw q (.inr hq)]
    have w1 := Whole.flatMap (fun q : QueueObj => linkLine q.name w.name (arrowOf w) (styleOf w) (colorOf w)) (queuesOf w.input)
      fun q _ => linkLine_whole _ _ _ _ _
    have w2 := Whole.flatMap (fun q : QueueObj => linkLine w.name q.name (arrowOf w) (styleOf w) (colorOf w)) (queuesOf w.output)
      fun q _ => linkLine_whole _ _ _ _ _
    have hf : readLink [] = none := by decide +kernel
    have hf' : readNode [] = none := by decide +kernel
    generalize hA : (fun q : QueueObj => linkLine q.name w.name (arrowOf w) (styleOf w) (colorOf w)) = A at *
    generalize hB : (fun q : QueueObj => linkLine w.name q.name (arrowOf w) (styleOf w) (colorOf w)) = B at *
    have wA : ∀ q ∈ queuesOf w.input, Whole (A q) := fun q _ => by rw [← hA]; exact linkLine_whole _ _ _ _ _
    have wB : ∀ q ∈ queuesOf w.output, Whole (B q) := fun q _ => by rw [← hB]; exact linkLine_whole _ _ _ _ _
    have r1 : (queuesOf w.input).flatMap (fun q => reading readLink (A q)) =
        (queuesOf w.input).map fun q => (⟨q.name, w.name, arrowOf w, styleOf w, colorOf w⟩ : Link) :=
      flatMap_single _ _ _ fun q hq => by rw [← hA]; exact (readLink_line w q.name w.name (p2 q hq) p1).1
    have r2 : (queuesOf w.output).flatMap (fun q => reading readLink (B q)) =
        (queuesOf w.output).map fun q => (⟨w.name, q.name, arrowOf w, styleOf w, colorOf w⟩ : Link) :=
      flatMap_single _ _ _ fun q hq => by rw [← hB]; exact (readLink_line w w.name q.name p1 (p3 q hq)).1
    have r3 : (queuesOf w.input).flatMap (fun q => reading readNode (A q)) = [] :=
      flatMap_none _ _ fun q hq => by rw [← hA]; exact (readLink_line w q.name w.name (p2 q hq) p1).2
    have r4 : (queuesOf w.output).flatMap (fun q => reading readNode (B q)) = [] :=
      flatMap_none _ _ fun q hq => by rw [← hB]; exact (readLink_line w w.name q.name p1 (p3 q hq)).2
    refine ⟨(queuesOf w.input).flatMap A ++ (queuesOf w.output).flatMap B ++ l, by simp only [allLinks, hwl, e1],
      (w1.append w2).append e2, ?_, ?_⟩
    · rw [reading_append readLink hf _ _ (w1.append w2), reading_append readLink hf _ _ w1, e3, List.flatMap_cons,
        reading_flatMap readLink hf A _ wA, reading_flatMap readLink hf B _ wB, r1, r2]
      rfl
    · rw [reading_append readNode hf' _ _ (w1.append w2), reading_append readNode hf' _ _ w1, e4,
        reading_flatMap readNode hf' A _ wA, reading_flatMap readNode hf' B _ wB, r3, r4]
      rfl

theorem reading_parts (hf : f [] = none) (a b c d e l g : Txt) (ha : Whole a) (hb : Whole b) (hc : Whole c) (hd : Whole d) (he : Whole e) (hl : Whole l)
    (ra : reading f a = []) (rc : reading f c = []) (re : reading f e = []) (rg : reading f g = []) :
    reading f (a ++ b ++ c ++ d ++ e ++ l ++ g) = reading f b ++ reading f d ++ reading f l := by
  have a1 := ha.append hb
  have a2 := a1.append hc
  have a3 := a2.append hd
  have a4 := a3.append he
  have a5 := a4.append hl
  rw [reading_append f hf _ _ a5, reading_append f hf _ _ a4, reading_append f hf _ _ a3, reading_append f hf _ _ a2,
    reading_append f hf _ _ a1, reading_append f hf _ _ ha, ra, rc, re, rg]
  simp only [List.nil_append, List.append_nil]

theorem legend_reading (hf : f [] = none) (h : ∀ l ∈ legendLines, f l.toList = none) : reading f legend = [] := by
  unfold legend
  have hn : ∀ l ∈ legendLines, '\n' ∉ l.toList := by decide +kernel
  rw [reading_flatMap f hf _ _ fun l _ => .inr ⟨_, rfl⟩]
  refine flatMap_none _ _ fun l hl => ?_
  rw [reading_line f hf _ (hn l hl), h l hl]
  rfl

theorem legend_link : reading readLink legend = [] := legend_reading readLink (by decide +kernel) (by decide +kernel)

theorem legend_node : reading readNode legend = [] := legend_reading readNode (by decide +kernel) (by decide +kernel)

theorem const_read : reading readLink header = [] ∧ reading readLink header2 = [] ∧ reading readLink "\n".toList = [] ∧
    reading readNode header = [] ∧ reading readNode header2 = [] ∧ reading readNode "\n".toList = [] := by
  refine ⟨?_, ?_, ?_, ?_, ?_, ?_⟩ <;> decide +kernel

theorem const_whole : Whole header ∧ Whole header2 ∧ Whole "\n".toList :=
  ⟨.inr ⟨header.dropLast, by decide +kernel⟩, .inr ⟨header2.dropLast, by decide +kernel⟩, .inr ⟨[], by decide⟩⟩

/-- The nodes and the links are those of the lines of the queues, of the works and of the links. -/
theorem code_parts (t : Topo) (l : Txt) (e1 : allLinks t.works = .ok l) (e2 : Whole l) : ∃ c, code t = .ok c ∧
    linksOf c = (t.queues.flatMap fun q => reading readLink (queueLine q)) ++ (t.works.flatMap fun w => reading readLink (workLine w)) ++ linksOf l ∧
    nodesOf c = (t.queues.flatMap fun q => reading readNode (queueLine q)) ++ (t.works.flatMap fun w => reading readNode (workLine w)) ++ nodesOf l := by
  have hf : readLink [] = none := by decide +kernel
  have hf' : readNode [] = none := by decide +kernel
  have wq : ∀ q ∈ t.queues, Whole (queueLine q) := fun q _ => .inr ⟨_, queueLine_eq q⟩
  have ww : ∀ w ∈ t.works, Whole (workLine w) := fun w _ => .inr ⟨_, workLine_eq w⟩
  obtain ⟨c1, c2, c3, c5, c6, c7⟩ := const_read
  have c4 := legend_link
  have c8 := legend_node
  obtain ⟨h1, h2, h3⟩ := const_whole
  have hcode : code t = .ok (header ++ t.queues.flatMap queueLine ++ header2 ++ t.works.flatMap workLine ++ "\n".toList ++ l ++ legend) := by
    unfold code
    rw [e1]
  generalize header = H at *
  generalize header2 = H2 at *
  generalize legend = G at *
  generalize "\n".toList = N at *
  refine ⟨_, hcode, ?_, ?_⟩
  · show reading readLink _ = _
    rw [reading_parts readLink hf _ _ _ _ _ _ _ h1 (Whole.flatMap _ _ wq) h2 (Whole.flatMap _ _ ww) h3 e2 c1 c2 c3 c4,
      reading_flatMap readLink hf _ _ wq, reading_flatMap readLink hf _ _ ww]
    rfl
  · show reading readNode _ = _
    rw [reading_parts readNode hf' _ _ _ _ _ _ _ h1 (Whole.flatMap _ _ wq) h2 (Whole.flatMap _ _ ww) h3 e2 c5 c6 c7 c8,
      reading_flatMap readNode hf' _ _ wq, reading_flatMap readNode hf' _ _ ww]
    rfl

/-- The whole file. -/
theorem code_read (t : Topo) (hd : ∀ w ∈ t.works, Drawable w) (hp : PlainNames t) :
    ∃ c, code t = .ok c ∧ linksOf c = t.works.flatMap linksFor ∧
      nodesOf c = (t.queues.map fun q => ⟨q.name, "<f0> ".toList ++ q.name ++ "|<f1>|<f2>|<f3>|<f4>".toList, none⟩) ++
        t.works.map fun w => ⟨w.name, w.name, some (colorOf w)⟩ := by
  obtain ⟨l, e1, e2, e3, e4⟩ := allLinks_read t.works hd hp.works
  obtain ⟨c, hc, h1, h2⟩ := code_parts t l e1 e2
  have r1 : t.queues.flatMap (fun q => reading readLink (queueLine q)) = [] := flatMap_none _ _ fun q hq => (queue_read q (hp.queues q hq)).1
  have r2 : t.works.flatMap (fun w => reading readLink (workLine w)) = [] := flatMap_none _ _ fun w hw => (work_read w (hp.works w hw).1).1
  have r3 := flatMap_single (fun q => reading readNode (queueLine q)) _ t.queues fun q hq => (queue_read q (hp.queues q hq)).2
  have r4 := flatMap_single (fun w => reading readNode (workLine w)) _ t.works fun w hw => (work_read w (hp.works w hw).1).2
  refine ⟨c, hc, ?_, ?_⟩
  · rw [h1, r1, r2]
    exact e3
  · rw [h2, r3, r4, show nodesOf l = [] from e4, List.append_nil]

theorem substring_iff (x : Txt) : ∀ s : Txt, substring x s = true ↔ ∃ a b, s = a ++ x ++ b
  | [] => by
    unfold substring
    rw [List.isEmpty_iff]
    constructor
    · rintro rfl; exact ⟨[], [], rfl⟩
    · rintro ⟨a, b, h⟩
      have := List.append_eq_nil_iff.1 h.symm
      exact (List.append_eq_nil_iff.1 this.1).2
  | c :: s => by
    unfold substring
    rw [Bool.or_eq_true, substring_iff x s, List.isPrefixOf_iff_prefix]
    constructor
    · rintro (⟨b, h⟩ | ⟨a, b, rfl⟩)
      · exact ⟨[], b, by rw [List.nil_append, h]⟩
      · exact ⟨c :: a, b, rfl⟩
    · rintro ⟨a, b, h⟩
      cases a with
      | nil => exact .inl ⟨b, by rw [h]; rfl⟩
      | cons d a =>
        rw [List.cons_append, List.cons_append] at h
        injection h with _ h
        exact .inr ⟨a, b, h⟩

theorem has_iff (k : Kind) (x : Txt) : k.has x = true ↔ k.Is x := by
  cases k with
  | none => exact ⟨fun h => (by cases h), fun h => False.elim h⟩
  | text s => exact substring_iff x s
  | seq l => exact decide_eq_true_iff

theorem drawn_for (w : WorkObj) (src dst : Txt) : DrawnFor w ⟨src, dst, arrowOf w, styleOf w, colorOf w⟩ where
  global := by
    unfold arrowOf
    split
    · exact .inl ⟨rfl, (has_iff _ _).1 ‹_›⟩
    · exact .inr ⟨rfl, fun h => ‹¬ _› ((has_iff _ _).2 h)⟩
  oneShot := by
    unfold styleOf
    split
    · exact .inl ⟨rfl, (has_iff _ _).1 ‹_›⟩
    · exact .inr ⟨rfl, fun h => ‹¬ _› ((has_iff _ _).2 h)⟩
  io := by
    unfold colorOf
    split
    · exact .inl ⟨rfl, (has_iff _ _).1 ‹_›⟩
    · exact .inr ⟨rfl, fun h => ‹¬ _› ((has_iff _ _).2 h)⟩

end Graphviz

/-! ## C142 -/

open Graphviz in
/-- **C142** (proved part).  For every topology with plain names, all different, in which no queue of a work is a lone list: a file is
written; read as a file of graphviz, it has one node per queue, whose title is its name, and one node per work with its name and its colour;
there is a link from a queue to a work if and only if the queue is an input of the work, a link from a work to a queue if and only if the queue
is an output of the work, no other link, and each link is drawn for the kind of its work.  Missing: other names and lone lists, for which it is
false. -/
theorem C142_graph_partial (t : Topo) (hp : PlainNames t) (hd : ∀ w ∈ t.works, Drawable w)
    (hn : (t.queues.map QueueObj.name ++ t.works.map WorkObj.name).Nodup)
    (hq : ∀ w ∈ t.works, ∀ q, q ∈ queuesOf w.input ∨ q ∈ queuesOf w.output → q ∈ t.queues)
    (files : Txt → Option Txt) (name : Txt) :
    ∃ c, makeCode t files name = ((fun p => if p = fileName name then some c else files p), none) ∧
      ((nodesOf c).map Node.id = t.queues.map QueueObj.name ++ t.works.map WorkObj.name) ∧
      (∀ q ∈ t.queues, ∃ n ∈ nodesOf c, n.id = q.name ∧ title n.label = q.name) ∧
      (∀ w ∈ t.works, ∃ n ∈ nodesOf c, n.id = w.name ∧ n.label = w.name ∧
        (n.color = some "Green".toList ∧ w.kind.Is "io".toList ∨ n.color = some "Black".toList ∧ ¬ w.kind.Is "io".toList)) ∧
      (∀ q ∈ t.queues, ∀ w ∈ t.works,
        ((∃ l ∈ linksOf c, l.src = q.name ∧ l.dst = w.name) ↔ q ∈ queuesOf w.input) ∧
        ((∃ l ∈ linksOf c, l.src = w.name ∧ l.dst = q.name) ↔ q ∈ queuesOf w.output)) ∧
      (∀ l ∈ linksOf c, ∃ w ∈ t.works, DrawnFor w l ∧
        ((l.dst = w.name ∧ ∃ q ∈ t.queues, l.src = q.name) ∨ (l.src = w.name ∧ ∃ q ∈ t.queues, l.dst = q.name))) ∧
      (linksOf c).length = (t.works.map fun w => (queuesOf w.input).length + (queuesOf w.output).length).sum := by
  obtain ⟨c, e1, e2, e3⟩ := code_read t hd hp
  obtain ⟨nq, nw, nd⟩ := List.nodup_append.1 hn
  have injq : ∀ a ∈ t.queues, ∀ b ∈ t.queues, a.name = b.name → a = b := fun a ha b hb h => List.inj_on_of_nodup_map nq ha hb h
  have injw : ∀ a ∈ t.works, ∀ b ∈ t.works, a.name = b.name → a = b := fun a ha b hb h => List.inj_on_of_nodup_map nw ha hb h
  have hdiff : ∀ q ∈ t.queues, ∀ w ∈ t.works, q.name ≠ w.name := fun q hq w hw =>
    nd _ (List.mem_map.2 ⟨q, hq, rfl⟩) _ (List.mem_map.2 ⟨w, hw, rfl⟩)
  have hmem : ∀ l, l ∈ linksOf c ↔ ∃ w ∈ t.works, (∃ q ∈ queuesOf w.input, l = ⟨q.name, w.name, arrowOf w, styleOf w, colorOf w⟩) ∨
      ∃ q ∈ queuesOf w.output, l = ⟨w.name, q.name, arrowOf w, styleOf w, colorOf w⟩ := by
    intro l
    rw [e2, List.mem_flatMap]
    unfold linksFor
    simp only [List.mem_append, List.mem_map, eq_comm]
  refine ⟨c, by unfold makeCode; rw [e1], ?_, ?_, ?_, ?_, ?_, ?_⟩
  · rw [e3, List.map_append, List.map_map, List.map_map]
    rfl
  · intro q hqm
    refine ⟨_, by rw [e3]; exact List.mem_append_left _ (List.mem_map.2 ⟨q, hqm, rfl⟩), rfl, ?_⟩
    have hpl := hp.queues q hqm
    have a1 : "<f0> ".toList = ['<', 'f', '0', '>', ' '] := by decide
    have a2 : "|<f1>|<f2>|<f3>|<f4>".toList = '|' :: "<f1>|<f2>|<f3>|<f4>".toList := by decide
    show title ("<f0> ".toList ++ q.name ++ "|<f1>|<f2>|<f3>|<f4>".toList) = _
    unfold title
    rw [a1, a2]
    generalize "<f1>|<f2>|<f3>|<f4>".toList = R
    show (q.name ++ '|' :: R).takeWhile (· != '|') = q.name
    rw [List.takeWhile_append_of_pos (fun ch hch => by simpa using (hpl ch hch).2.2.2.1)]
    simp
  · intro w hw
    refine ⟨_, by rw [e3]; exact List.mem_append_right _ (List.mem_map.2 ⟨w, hw, rfl⟩), rfl, rfl, ?_⟩
    rcases (drawn_for w w.name w.name).io with ⟨h1, h2⟩ | ⟨h1, h2⟩
    · exact .inl ⟨congrArg some h1, h2⟩
    · exact .inr ⟨congrArg some h1, h2⟩
  · intro q hqm w hw
    constructor
    · constructor
      · rintro ⟨l, hl, h1, h2⟩
        obtain ⟨v, hv, ⟨r, hr, rfl⟩ | ⟨r, hr, rfl⟩⟩ := (hmem l).1 hl
        · have := injw v hv w hw h2
          subst this
          have := injq r (hq v hv r (.inl hr)) q hqm h1
          rw [← this]
          exact hr
        · exact absurd h2 (hdiff r (hq v hv r (.inr hr)) w hw)
      · intro h
        exact ⟨_, (hmem _).2 ⟨w, hw, .inl ⟨q, h, rfl⟩⟩, rfl, rfl⟩
    · constructor
      · rintro ⟨l, hl, h1, h2⟩
        obtain ⟨v, hv, ⟨r, hr, rfl⟩ | ⟨r, hr, rfl⟩⟩ := (hmem l).1 hl
        · exact absurd h1 (hdiff r (hq v hv r (.inl hr)) w hw)
        · have := injw v hv w hw h1
          subst this
          have := injq r (hq v hv r (.inr hr)) q hqm h2
          rw [← this]
          exact hr
      · intro h
        exact ⟨_, (hmem _).2 ⟨w, hw, .inr ⟨q, h, rfl⟩⟩, rfl, rfl⟩
  · intro l hl
    obtain ⟨w, hw, ⟨r, hr, rfl⟩ | ⟨r, hr, rfl⟩⟩ := (hmem l).1 hl
    · exact ⟨w, hw, drawn_for _ _ _, .inl ⟨rfl, r, hq w hw r (.inl hr), rfl⟩⟩
    · exact ⟨w, hw, drawn_for _ _ _, .inr ⟨rfl, r, hq w hw r (.inr hr), rfl⟩⟩
  · rw [e2, List.length_flatMap]
    congr 1
    apply List.map_congr_left
    intro w _
    unfold linksFor
    rw [List.length_append, List.length_map, List.length_map]

open Graphviz in
/-- C142: the file has the name which is given, with ".dot" added if it does not end with it; the other files are not changed. -/
theorem C142_file (t : Topo) (files : Txt → Option Txt) (name : Txt) :
    ((∃ s, name = s ++ ".dot".toList) → fileName name = name) ∧ ((¬ ∃ s, name = s ++ ".dot".toList) → fileName name = name ++ ".dot".toList) ∧
    (∀ p, p ≠ fileName name → (makeCode t files name).1 p = files p) ∧
    ((makeCode t files name).2 ≠ none → (makeCode t files name).1 = files) := by
  refine ⟨?_, ?_, ?_, ?_⟩
  · rintro ⟨s, rfl⟩
    unfold fileName
    generalize hd : ".dot".toList = D
    have hlen : D.length = 4 := by rw [← hd]; decide
    rw [if_pos (by rw [List.isSuffixOf_iff_suffix]; exact ⟨s, rfl⟩), List.length_append, hlen, Nat.add_sub_cancel, List.take_left']
    rfl
  · intro h
    unfold fileName
    generalize ".dot".toList = D at *
    rw [if_neg]
    rw [List.isSuffixOf_iff_suffix]
    rintro ⟨s, hs⟩
    exact h ⟨s, hs.symm⟩
  · intro p hp
    unfold makeCode
    cases code t with
    | error e => rfl
    | ok c => simp only [hp, if_false]
  · unfold makeCode
    cases code t with
    | error e => intro _; rfl
    | ok c => intro h; exact absurd rfl h

open Graphviz in
/-- **C142** is false of the code for a work whose input (or output) is a queue of kind "list", not in a tuple: the link is missing if the
queue is empty, and otherwise `AttributeError` is raised and no file is written. -/
theorem C142_list_fails (name queue : Txt) (k : Kind) (n : Nat) (files : Txt → Option Txt) (file : Txt) :
    let t : Topo := ⟨[⟨queue, true, n⟩], [⟨name, k, some (.one ⟨queue, true, n⟩), none⟩]⟩
    (n = 0 → allLinks t.works = .ok []) ∧ (n ≠ 0 → makeCode t files file = (files, some .attributeError)) := by
  intro t
  constructor
  · rintro rfl
    rfl
  · intro h
    have : allLinks t.works = .error .attributeError := by
      show allLinks [(⟨name, k, some (.one ⟨queue, true, n⟩), none⟩ : WorkObj)] = _
      simp only [allLinks, workLinks, drawnQueues, Bool.true_eq_false, if_false, h]
    simp only [makeCode, code, this]

open Graphviz in
/-- **C142** is false of the code for a queue and a work with the same name: reading the queue and writing in it give the same file. -/
theorem C142_same_name_fails (name : Txt) (k : Kind) :
    code ⟨[⟨name, false, 0⟩], [⟨name, k, some (.one ⟨name, false, 0⟩), none⟩]⟩ =
      code ⟨[⟨name, false, 0⟩], [⟨name, k, none, some (.one ⟨name, false, 0⟩)⟩]⟩ := by
  simp only [code, allLinks, workLinks, drawnQueues, if_true, List.flatMap_cons, List.flatMap_nil, List.append_nil, List.nil_append]
  rfl

open Graphviz in
/-- **C142** is false of the code for two queues with the same name, which the constructor of a topology does not reject: using the one or the
other gives the same file. -/
theorem C142_two_queues_fails (name work : Txt) (k : Kind) (n : Nat) :
    code ⟨[⟨name, false, 0⟩, ⟨name, false, n⟩], [⟨work, k, some (.one ⟨name, false, 0⟩), none⟩]⟩ =
      code ⟨[⟨name, false, 0⟩, ⟨name, false, n⟩], [⟨work, k, some (.one ⟨name, false, n⟩), none⟩]⟩ := by
  simp only [code, allLinks, workLinks, drawnQueues, if_true, List.flatMap_cons, List.flatMap_nil, List.append_nil]
  rfl

open Graphviz in
/-- **C142** is false of the code for a name with a quotation mark: the identifier of the node is cut; neither the node nor the link is read. -/
theorem C142_quote_fails :
    let q : QueueObj := ⟨"a\"b".toList, false, 0⟩
    let w : WorkObj := ⟨"w".toList, .none, some (.one q), none⟩
    ∃ c, code ⟨[q], [w]⟩ = .ok c ∧ linksOf c = [] ∧ (nodesOf c).map Node.id = ["w".toList] := by
  intro q w
  obtain ⟨c, h1, h2, h3⟩ := code_parts ⟨[q], [w]⟩ (linkLine q.name w.name (arrowOf w) (styleOf w) (colorOf w)) (by
    show allLinks [w] = _
    simp only [allLinks, workLinks, drawnQueues, w, q, if_true, List.flatMap_cons, List.flatMap_nil, List.append_nil]) (linkLine_whole _ _ _ _ _)
  refine ⟨c, h1, ?_, ?_⟩
  · rw [h2]
    decide +kernel
  · rw [h3]
    decide +kernel

open Graphviz in
/-- **C142** is false of the code for a queue named "key": the legend, after it in the file, declares a node with the same identifier and the
label of the legend. -/
theorem C142_legend_fails (t : Topo) (c : Txt) (h : code t = .ok c) :
    ∃ before after, c = before ++ '\n' :: (" key [label=<<table".toList ++ after) := by
  have hl : ∃ a b, legend = a ++ '\n' :: (" key [label=<<table".toList ++ b) :=
    ⟨((legendLines.take 4).flatMap fun l => l.toList ++ ['\n']) ++ (legendLines.getD 4 "").toList,
      ((legendLines.getD 5 "").toList.drop 19) ++ '\n' :: ((legendLines.drop 6).flatMap fun l => l.toList ++ ['\n']), by decide +kernel⟩
  obtain ⟨a, b, e⟩ := hl
  unfold code at h
  split at h
  · cases h
  · rename_i l _
    injection h with h
    rw [← h, e]
    generalize " key [label=<<table".toList = K
    exact ⟨header ++ t.queues.flatMap queueLine ++ header2 ++ t.works.flatMap workLine ++ "\n".toList ++ l ++ a, b, by rw [List.append_assoc _ a]⟩

/-! ## Non-vacuity -/

namespace Graphviz

/-- A topology of two works, as in TopologyImage2Image. -/
def demo : Topo :=
  let paths : QueueObj := ⟨"paths".toList, false, 0⟩
  let arrays : QueueObj := ⟨"arrays".toList, true, 3⟩
  ⟨[paths, arrays], [⟨"fill path".toList, .seq ["global".toList, "one shot".toList], none, some (.one paths)⟩,
    ⟨"read array".toList, .text "io".toList, some (.one paths), some (.many [arrays])⟩]⟩

end Graphviz

open Graphviz in
/-- Non-vacuity of `C142_graph_partial`. -/
example : PlainNames demo ∧ (∀ w ∈ demo.works, Drawable w) ∧ (demo.queues.map QueueObj.name ++ demo.works.map WorkObj.name).Nodup ∧
    (∀ w ∈ demo.works, ∀ q, q ∈ queuesOf w.input ∨ q ∈ queuesOf w.output → q ∈ demo.queues) := by
  refine ⟨⟨by unfold Plain; decide +kernel, by unfold Plain; decide +kernel⟩, ?_, by decide +kernel, ?_⟩
  · intro w hw q hq
    simp only [demo, List.mem_cons, List.not_mem_nil, or_false] at hw
    rcases hw with rfl | rfl <;> simp only [Option.some.injEq, QueueArg.one.injEq, reduceCtorEq, false_or, or_false] at hq <;> rw [← hq]
  · intro w hw q hq
    simp only [demo, List.mem_cons, List.not_mem_nil, or_false] at hw ⊢
    rcases hw with rfl | rfl <;> simp only [queuesOf, List.mem_cons, List.not_mem_nil, or_false, false_or] at hq <;> tauto

open Graphviz in
/-- The links of the file of this topology. -/
example : (allLinks demo.works).map linksOf = .ok [⟨"fill path".toList, "paths".toList, "odiamond".toList, "filled".toList, "Black".toList⟩,
    ⟨"paths".toList, "read array".toList, "normal".toList, "dashed".toList, "Green".toList⟩,
    ⟨"read array".toList, "arrays".toList, "normal".toList, "dashed".toList, "Green".toList⟩] := by
  decide +kernel

open Graphviz in
example : fileName "topo.dot".toList = "topo.dot".toList ∧ fileName "topo".toList = "topo.dot".toList := by decide +kernel

end Verif
