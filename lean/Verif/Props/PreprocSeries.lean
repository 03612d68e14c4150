import Verif.Model.PreprocSeries
import Verif.Props.PreprocTools

/-!
# C148: series of images and colour images given to the preprocessing tools
-/

namespace Verif
open Verif.PivGrid Verif.PreprocTools Verif.PreprocSeries

/-! ## Specification -/

/-- The images of a series: those of an array of 3 dimensions or of a sequence. -/
def PreprocSeries.Input.images : Input → List Arr
  | .array2 a => [a]
  | .array3 s => s.ims.map fun im => ⟨s.dtype, im⟩
  | .seq _ l => l
  | _ => []

/-- A series of images: an array of 3 dimensions, a list or a tuple. -/
def PreprocSeries.Input.IsSeries : Input → Prop
  | .array3 _ => True
  | .seq _ _ => True
  | _ => False

/-- All images have one size. -/
def OneSize (l : List Arr) : Prop := ∀ a ∈ l, ∀ b ∈ l, a.im.ny = b.im.ny ∧ a.im.nx = b.im.nx

theorem sameSizes_iff {l : List Arr} : sameSizes l = true ↔ OneSize l := by
  unfold OneSize
  cases l with
  | nil => simp [sameSizes]
  | cons a l =>
    simp only [sameSizes, List.all_eq_true, Bool.and_eq_true, beq_iff_eq]
    constructor
    · intro h
      have h' : ∀ b ∈ a :: l, b.im.ny = a.im.ny ∧ b.im.nx = a.im.nx := by
        intro b hb
        rcases List.mem_cons.1 hb with rfl | hb
        · exact ⟨rfl, rfl⟩
        · exact h b hb
      intro b hb c hc
      exact ⟨(h' b hb).1.trans (h' c hc).1.symm, (h' b hb).2.trans (h' c hc).2.symm⟩
    · intro h b hb
      exact h b (List.mem_cons_of_mem _ hb) a List.mem_cons_self

theorem seqLoop_ok {tool : Arr → Except Err Arr} : ∀ {l : List Arr} {outs : List Arr}, l.map tool = outs.map Except.ok →
    PreprocSeries.seqLoop tool l = .ok (outs.map Arr.im)
  | [], [], _ => rfl
  | [], _ :: _, h => by simp at h
  | _ :: _, [], h => by simp at h
  | a :: l, o :: outs, h => by
    simp only [List.map_cons, List.cons.injEq] at h
    rw [PreprocSeries.seqLoop, h.1, seqLoop_ok h.2]
    rfl

theorem seqLoop_error {tool : Arr → Except Err Arr} {e : Err} : ∀ {before : List Arr} {a : Arr} {rest : List Arr},
    (∀ b ∈ before, ∃ o, tool b = .ok o) → tool a = .error e → PreprocSeries.seqLoop tool (before ++ a :: rest) = .error e
  | [], a, rest, _, h => by rw [List.nil_append, PreprocSeries.seqLoop, h]
  | b :: before, a, rest, hb, h => by
    obtain ⟨o, ho⟩ := hb b List.mem_cons_self
    rw [List.cons_append, PreprocSeries.seqLoop, ho, seqLoop_error (fun c hc => hb c (List.mem_cons_of_mem _ hc)) h]

theorem iterateLoop_seq (d : DType) (tool : Arr → Except Err Arr) : ∀ ims : List (Img ℝ),
    iterateLoop d tool ims = PreprocSeries.seqLoop tool (ims.map fun im => ⟨d, im⟩)
  | [] => rfl
  | im :: ims => by
    rw [List.map_cons, iterateLoop, PreprocSeries.seqLoop, iterateLoop_seq d tool ims]
    rfl

/-- C148: for a series of images of one size (array, list or tuple), a tool of images gives an array of floats with, for each image and in
their order, what the tool gives for this image alone. -/
theorem C148_each (tool : Arr → Except Err Arr) (tool3 : Stack → Except Err Stack) (i : Input) (hs : i.IsSeries) (h1 : OneSize i.images)
    (outs : List Arr) (h : i.images.map (fun a => iterateInput tool tool3 (.array2 a)) = outs.map fun o => .ok (.array2 o)) :
    iterateInput tool tool3 i = .ok (.array3 ⟨.float, outs.map Arr.im⟩) := by
  have h' : i.images.map tool = outs.map Except.ok := by
    have hinj : ∀ (l outs : List Arr), l.map (fun a => iterateInput tool tool3 (.array2 a)) = outs.map (fun o => .ok (.array2 o)) →
        l.map tool = outs.map Except.ok := by
      intro l
      induction l with
      | nil => intro outs h; cases outs with
        | nil => rfl
        | cons o outs => simp at h
      | cons a l ih => intro outs h; cases outs with
        | nil => simp at h
        | cons o outs =>
          simp only [List.map_cons, List.cons.injEq] at h
          rw [List.map_cons, List.map_cons, ih _ h.2]
          have h0 := h.1
          cases ht : tool a with
          | error e => simp only [iterateInput, ht] at h0; cases h0
          | ok o' => simp only [iterateInput, ht, Except.ok.injEq, Output.array2.injEq] at h0; rw [h0]
    exact hinj _ _ h
  cases i with
  | array3 s =>
    have h2 : (s.ims.map fun im => (⟨s.dtype, im⟩ : Arr)).map tool = outs.map Except.ok := h'
    simp only [iterateInput, iterate, iterateLoop_seq, seqLoop_ok h2]
  | seq k l =>
    have hsz : sameSizes l = true := sameSizes_iff.2 h1
    have h2 : l.map tool = outs.map Except.ok := h'
    simp only [iterateInput, hsz, Bool.not_true, Bool.false_eq_true, if_false, seqLoop_ok h2]
  | array2 a => exact hs.elim
  | array4 l => exact hs.elim
  | none => exact hs.elim

/-- C148: an image which the tool refuses makes the tool fail for the series, with the exception of the first such image. -/
theorem C148_refused (tool : Arr → Except Err Arr) (tool3 : Stack → Except Err Stack) (i : Input) (hs : i.IsSeries) (h1 : OneSize i.images)
    (before : List Arr) (a : Arr) (rest : List Arr) (hi : i.images = before ++ a :: rest) (hb : ∀ b ∈ before, ∃ o, tool b = .ok o) (e : Err)
    (ha : tool a = .error e) : iterateInput tool tool3 i = .error e := by
  cases i with
  | array3 s =>
    have hi' : s.ims.map (fun im => (⟨s.dtype, im⟩ : Arr)) = before ++ a :: rest := hi
    simp only [iterateInput, iterate, iterateLoop_seq, hi', seqLoop_error hb ha]
  | seq k l =>
    have hsz : sameSizes l = true := sameSizes_iff.2 h1
    have hi' : l = before ++ a :: rest := hi
    subst hi'
    simp only [iterateInput, hsz, Bool.not_true, Bool.false_eq_true, if_false, seqLoop_error hb ha]
  | array2 a => exact hs.elim
  | array4 l => exact hs.elim
  | none => exact hs.elim

/-- C148: a sequence of images of different sizes is refused with `ValueError`, by the tools of images and by the temporal filters. -/
theorem C148_sizes (tool : Arr → Except Err Arr) (tool3 : Stack → Except Err Stack) (r : Rank) (weight : ℝ) (w : WindowShape) (k : Kind)
    (l : List Arr) (h : ¬ OneSize l) :
    iterateInput tool tool3 (.seq k l) = .error .valueError ∧ temporalInput r weight w (.seq k l) = .error .valueError := by
  have hf : sameSizes l = false := by
    rw [← Bool.not_eq_true, sameSizes_iff]; exact h
  simp only [iterateInput, temporalInput, hf, Bool.not_false, if_true, and_self]

/-- C148: a temporal filter gives for a list (a tuple) of images of one type and one size the list (the tuple) of the images which it gives
for the array of these images. -/
theorem C148_temporal (r : Rank) (weight : ℝ) (w : WindowShape) (k : Kind) (d : DType) (ims : List (Img ℝ))
    (h1 : OneSize (ims.map fun im => ⟨d, im⟩)) (out : Stack) (h : temporalInput r weight w (.array3 ⟨d, ims⟩) = .ok (.array3 out)) :
    temporalInput r weight w (.seq k (ims.map fun im => ⟨d, im⟩)) = .ok (.seq k (out.ims.map fun im => ⟨.float, im⟩)) := by
  have hsz : sameSizes (ims.map fun im => (⟨d, im⟩ : Arr)) = true := sameSizes_iff.2 h1
  simp only [temporalInput, hsz, Bool.not_true, Bool.false_eq_true, if_false] at h ⊢
  have hm : (ims.map fun im => (⟨d, im⟩ : Arr)).map Arr.im = ims := by rw [List.map_map]; exact List.map_id _
  rw [hm]
  have ht : ∀ d', temporal r weight w ⟨d', ims⟩ = temporal r weight w ⟨d, ims⟩ := fun _ => rfl
  rw [ht]
  cases hc : temporal r weight w ⟨d, ims⟩ with
  | error e => rw [hc] at h; cases h
  | ok o =>
    rw [hc] at h
    simp only [Except.ok.injEq, Output.array3.injEq] at h
    rw [h]

/-- Disagreement: the type of the numbers depends on the way in which an image is given: integers for the image alone, floats for the image
in a series (a threshold on images of integers). -/
theorem C148_type_fails (im : Img ℝ) (lo hi : ℤ) (hlh : lo ≤ hi) (tool3 : Stack → Except Err Stack) :
    ∃ out outs, iterateInput (globalThreshold (.int lo) none) tool3 (.array2 ⟨.int lo hi, im⟩) = .ok (.array2 out) ∧ out.dtype = .int lo hi ∧
      iterateInput (globalThreshold (.int lo) none) tool3 (.seq .list [⟨.int lo hi, im⟩]) = .ok (.array3 outs) ∧ outs.dtype = .float := by
  have h : ∃ out, globalThreshold (.int lo) none ⟨.int lo hi, im⟩ = .ok out ∧ out.dtype = .int lo hi := by
    unfold globalThreshold
    simp only [convert, Option.getD_none, defaultMaxima]
    rw [if_pos ⟨le_refl _, hlh⟩]
    simp only
    rw [if_pos ⟨hlh, le_refl _⟩]
    exact ⟨_, rfl, rfl⟩
  obtain ⟨out, e, hd⟩ := h
  refine ⟨out, ⟨.float, [out.im]⟩, ?_, hd, ?_, rfl⟩
  · simp only [iterateInput, e]
  · simp [iterateInput, sameSizes, PreprocSeries.seqLoop, e]

/-! ## Colour images -/

/-- The image of one colour. -/
def PreprocSeries.Colour.plane (c : Colour) (k : ℕ) : Arr := ⟨c.dtype, ⟨c.ny, c.nx, fun y x => c.get y x k⟩⟩

/-- Disagreement: the lines of a colour image are treated independently, as if they were the images of a series: for every tool, the result
on a line depends only on this line. -/
theorem C148_colour_lines_fails (tool : Arr → Except Err Arr) (tool3 : Stack → Except Err Stack) (c c' : Colour) (hd : c.dtype = c'.dtype)
    (hx : c.nx = c'.nx) (hc : c.nc = c'.nc) (y : ℕ) (hy : y < c.ny) (hy' : y < c'.ny) (hl : c.get y = c'.get y) (out out' : Stack)
    (h : iterateInput tool tool3 (.array3 c.toStack) = .ok (.array3 out))
    (h' : iterateInput tool tool3 (.array3 c'.toStack) = .ok (.array3 out')) : out.ims[y]? = out'.ims[y]? := by
  have key : ∀ (c : Colour) (out : Stack), y < c.ny → iterateInput tool tool3 (.array3 c.toStack) = .ok (.array3 out) →
      ∃ o, tool ⟨c.dtype, ⟨c.nx, c.nc, c.get y⟩⟩ = .ok o ∧ out.ims[y]? = some o.im := by
    intro c out hy h
    have hi : iterate tool c.toStack = .ok out := by
      cases hc : iterate tool c.toStack with
      | error e => simp only [iterateInput, hc] at h; cases h
      | ok o => simp only [iterateInput, hc, Except.ok.injEq, Output.array3.injEq] at h; rw [h]
    obtain ⟨_, _, hall⟩ := C56_iterate tool c.toStack out hi
    exact hall y ⟨c.nx, c.nc, c.get y⟩ (by simp [Colour.toStack, hy])
  obtain ⟨o, e, ho⟩ := key c out hy h
  obtain ⟨o', e', ho'⟩ := key c' out' hy' h'
  rw [hd, hx, hc, hl, e'] at e
  cases e
  rw [ho, ho']

/-- A colour image with the same colour everywhere: `a` for the first colour and `b` for the others. -/
def uniformColour (ny nx nc : ℕ) (a b : ℝ) : Colour := ⟨.float, ny, nx, nc, fun _ _ k => if k = 0 then a else b⟩

theorem colour_columns (nc : ℕ) (hnc : 2 ≤ nc) : some 1 ∈ PreprocTools.window .reflect nc 3 0 := by
  unfold PreprocTools.window
  refine List.mem_map.2 ⟨2, by simp, ?_⟩
  simp only [Mode.index]
  have h1 : ((0 : ℕ) : ℤ) + ((2 : ℕ) : ℤ) - ((3 / 2 : ℕ) : ℤ) = 1 := by norm_num
  have h2 : ((1 : ℤ) % (2 * (nc : ℤ))).toNat = 1 := by
    rw [Int.emod_eq_of_lt (by norm_num) (by omega)]; rfl
  rw [h1, h2, if_pos (by omega)]

theorem reflect_window (n w i : ℕ) (hw : 0 < w) (hi : i < n) : ∃ j, j < n ∧ some j ∈ PreprocTools.window .reflect n w i := by
  unfold PreprocTools.window
  have hn : (0 : ℤ) < 2 * (n : ℤ) := by omega
  have hlt := Int.emod_lt_of_pos ((i : ℤ) + ((0 : ℕ) : ℤ) - ((w / 2 : ℕ) : ℤ)) hn
  have hge := Int.emod_nonneg ((i : ℤ) + ((0 : ℕ) : ℤ) - ((w / 2 : ℕ) : ℤ)) hn.ne'
  refine ⟨_, ?_, List.mem_map.2 ⟨0, List.mem_range.2 hw, rfl⟩⟩
  split_ifs <;> omega

/-- The window around a point of the first colour contains the second colour and only values of the image. -/
theorem colour_window (nx nc : ℕ) (a b : ℝ) (hnc : 2 ≤ nc) (y x : ℕ) (hx : x < nx) :
    b ∈ windowVals .reflect 3 3 ⟨nx, nc, (uniformColour 0 nx nc a b).get y⟩ x 0 ∧
    ∀ v ∈ windowVals .reflect 3 3 ⟨nx, nc, (uniformColour 0 nx nc a b).get y⟩ x 0, v = a ∨ v = b := by
  obtain ⟨j, hj, hm⟩ := reflect_window nx 3 x (by norm_num) hx
  unfold windowVals
  constructor
  · refine List.mem_flatMap.2 ⟨some j, hm, List.mem_map.2 ⟨some 1, colour_columns nc hnc, ?_⟩⟩
    simp [valueAt, uniformColour]
  · intro v hv
    obtain ⟨p, hp, hv⟩ := List.mem_flatMap.1 hv
    obtain ⟨q, hq, rfl⟩ := List.mem_map.1 hv
    have hsome : ∀ n i o, o ∈ PreprocTools.window .reflect n 3 i → ∃ k, o = some k := by
      intro n i o ho
      obtain ⟨k, _, rfl⟩ := List.mem_map.1 ho
      exact ⟨_, rfl⟩
    obtain ⟨k, rfl⟩ := hsome _ _ _ hp
    obtain ⟨l, rfl⟩ := hsome _ _ _ hq
    simp only [valueAt, uniformColour]
    by_cases h : l = 0
    · left; rw [if_pos h]
    · right; rw [if_neg h]

theorem rank_zero_eq {l : List ℝ} {a b r : ℝ} (hr : IsRank 0 l r) (hb : b ∈ l) (hl : ∀ v ∈ l, v = a ∨ v = b) (hab : b < a) : r = b := by
  have h1 := hr.le_of_zero b hb
  rcases hl r hr.1 with h | h
  · linarith
  · exact h

/-- Disagreement: with the subtraction of the minimum in windows of 3 points, a colour image with one colour everywhere is not
black: each colour alone gives a black image, but for the colour image, the first colour (larger than the others) is left with its
difference with the second colour.  Same thing for a colour image in a series of colour images. -/
theorem C148_colour_fails (ny nx nc : ℕ) (hnc : 2 ≤ nc) (a b : ℝ) (hab : b < a) :
    (∀ k, ∃ out, iterateInput (sliding .minimum 1 3 3 .reflect) (sliding3 .minimum 1 3) (.array2 ((uniformColour ny nx nc a b).plane k)) =
      .ok (.array2 out) ∧ out.im.ny = ny ∧ out.im.nx = nx ∧ ∀ y x, out.im.get y x = 0) ∧
    (∃ out, iterateInput (sliding .minimum 1 3 3 .reflect) (sliding3 .minimum 1 3) (.array3 (uniformColour ny nx nc a b).toStack) =
      .ok (.array3 out) ∧ ∀ y x, y < ny → x < nx → ∃ line, out.ims[y]? = some line ∧ line.get x 0 = a - b) ∧
    (∃ out, iterateInput (sliding .minimum 1 3 3 .reflect) (sliding3 .minimum 1 3) (.array4 [(uniformColour ny nx nc a b).toStack]) =
      .ok (.array4 [out]) ∧ ∀ y x, y < ny → x < nx → ∃ line, out.ims[y]? = some line ∧ line.get x 0 = a - b) := by
  have hok : ∀ A : Arr, ∃ o, sliding .minimum 1 3 3 .reflect A = .ok o := by
    intro A
    unfold sliding
    rw [if_neg (by norm_num)]
    exact ⟨_, rfl⟩
  refine ⟨?_, ?_, ?_⟩
  · intro k
    obtain ⟨o, ho⟩ := hok ((uniformColour ny nx nc a b).plane k)
    obtain ⟨_, _, h1, h2, _⟩ := C56_sliding _ _ _ _ _ _ _ ho
    refine ⟨o, by simp only [iterateInput, ho], h1, h2, fun y x => ?_⟩
    exact C56_sliding_uniform _ _ _ _ (by decide) _ _ (if k = 0 then a else b) (fun _ _ => rfl) ho y x
  · have hloop : ∀ l : List Arr, ∃ outs, PreprocSeries.seqLoop (sliding .minimum 1 3 3 .reflect) l = .ok outs := by
      intro l
      induction l with
      | nil => exact ⟨[], rfl⟩
      | cons A l ih =>
        obtain ⟨o, ho⟩ := hok A
        obtain ⟨os, hos⟩ := ih
        exact ⟨o.im :: os, by simp only [PreprocSeries.seqLoop, ho, hos]⟩
    obtain ⟨outs, hl⟩ := hloop ((uniformColour ny nx nc a b).toStack.ims.map fun im => ⟨(uniformColour ny nx nc a b).toStack.dtype, im⟩)
    have hi : iterate (sliding .minimum 1 3 3 .reflect) (uniformColour ny nx nc a b).toStack = .ok ⟨.float, outs⟩ := by
      unfold iterate
      rw [iterateLoop_seq, hl]
    refine ⟨⟨.float, outs⟩, by simp only [iterateInput, hi], ?_⟩
    intro y x hy hx
    obtain ⟨_, _, hall⟩ := C56_iterate _ _ _ hi
    obtain ⟨o, ho, hoy⟩ := hall y ⟨nx, nc, (uniformColour ny nx nc a b).get y⟩ (by simp [Colour.toStack, uniformColour, hy])
    obtain ⟨k, hk, _, _, hg⟩ := C56_sliding _ _ _ _ _ _ _ ho
    cases hk
    obtain ⟨_, r, hr, e⟩ := hg x 0
    obtain ⟨hb, hv⟩ := colour_window nx nc a b hnc y x hx
    have hrb : r = b := rank_zero_eq hr hb hv hab
    refine ⟨o.im, hoy, ?_⟩
    rw [e, hrb, one_mul, max_eq_right]
    · simp [uniformColour]
    · simp [uniformColour]; linarith
  · refine ⟨_, by
      simp only [iterateInput, stacksLoop, sliding3, Rank.index, if_neg (show ¬ (3 : ℕ) = 0 by norm_num)]; rfl, ?_⟩
    intro y x hy hx
    refine ⟨_, by
      simp only [Colour.toStack, uniformColour, List.getElem?_mapIdx, List.getElem?_map, List.getElem?_range hy, Option.map_some]; rfl, ?_⟩
    set ims : List (Img ℝ) := (List.range ny).map fun y => (⟨nx, nc, (uniformColour ny nx nc a b).get y⟩ : Img ℝ) with hims
    have hlen : ims.length = ny := by simp [hims]
    have hget : ∀ i, i < ny → ims[i]? = some ⟨nx, nc, (uniformColour ny nx nc a b).get i⟩ := by
      intro i hi; simp [hims, hi]
    obtain ⟨j, hj, hm⟩ := reflect_window ny 3 y (by norm_num) hy
    have hbmem : b ∈ windowVals3 3 3 3 ims y x 0 := by
      unfold windowVals3
      refine List.mem_flatMap.2 ⟨some j, by rw [hlen]; exact hm, ?_⟩
      simp only [Option.bind_some, hget j hj]
      exact (colour_window nx nc a b hnc j x hx).1
    have hall : ∀ v ∈ windowVals3 3 3 3 ims y x 0, v = a ∨ v = b := by
      intro v hv
      unfold windowVals3 at hv
      obtain ⟨i, _, hv⟩ := List.mem_flatMap.1 hv
      cases hi : i.bind fun i => ims[i]? with
      | none => rw [hi] at hv; cases hv
      | some im =>
        rw [hi] at hv
        obtain ⟨i', rfl, him⟩ := Option.bind_eq_some_iff.1 hi
        by_cases hlt : i' < ny
        · rw [hget i' hlt] at him
          cases him
          exact (colour_window nx nc a b hnc i' x hx).2 v hv
        · rw [List.getElem?_eq_none (by omega)] at him; cases him
    have hr := sorted_rank (windowVals3 3 3 3 ims y x 0) 0 (List.length_pos_of_mem hbmem)
    have hrb := rank_zero_eq hr hbmem hall hab
    show (if a - 1 * (sorted (windowVals3 3 3 3 ims y x 0)).getD 0 0 < 0 then 0 else _) = _
    rw [hrb, if_neg (by linarith)]
    show a - 1 * (sorted (windowVals3 3 3 3 ims y x 0)).getD 0 0 = _
    rw [hrb, one_mul]

/-! ## Examples -/

/-- A list of two images of different types of one size. -/
example : (Input.seq .list [⟨.int 0 255, ⟨2, 3, fun _ _ => 7⟩⟩, ⟨.float, ⟨2, 3, fun y x => y + x⟩⟩]).IsSeries ∧
    OneSize (Input.seq .list [⟨.int 0 255, ⟨2, 3, fun _ _ => 7⟩⟩, ⟨.float, ⟨2, 3, fun y x => y + x⟩⟩]).images ∧
    ∃ outs : List Arr, (Input.seq .list [⟨.int 0 255, ⟨2, 3, fun _ _ => 7⟩⟩, ⟨.float, ⟨2, 3, fun y x => y + x⟩⟩]).images.map (fun a =>
      iterateInput (sliding .minimum 1 3 3 .reflect) (sliding3 .minimum 1 3) (.array2 a)) = outs.map fun o => .ok (.array2 o) := by
  refine ⟨trivial, ?_, ?_⟩
  · intro a ha b hb
    simp only [Input.images, List.mem_cons, List.not_mem_nil, or_false] at ha hb
    rcases ha with rfl | rfl <;> rcases hb with rfl | rfl <;> exact ⟨rfl, rfl⟩
  · simp only [Input.images, List.map_cons, List.map_nil, iterateInput, sliding, Rank.index, if_neg (show ¬ (3 * 3 : ℕ) = 0 by norm_num)]
    exact ⟨[_, _], rfl⟩

/-- A series with a refused image: a threshold larger than the numbers of the type of the second image. -/
example : (∃ o, globalThreshold (.int 300) none ⟨.int 0 65535, ⟨2, 3, fun _ _ => 7⟩⟩ = .ok o) ∧
    ∃ e, globalThreshold (.int 300) none ⟨.int 0 255, ⟨2, 3, fun _ _ => 7⟩⟩ = .error e := by
  simp [globalThreshold, convert, defaultMaxima]

/-- Images of two sizes. -/
example : ¬ OneSize [⟨.float, ⟨2, 3, fun _ _ => 7⟩⟩, ⟨.float, ⟨3, 3, fun _ _ => 7⟩⟩] := by
  intro h
  have := (h ⟨.float, ⟨2, 3, fun _ _ => 7⟩⟩ (by simp) ⟨.float, ⟨3, 3, fun _ _ => 7⟩⟩ (by simp)).1
  simp at this

end Verif
