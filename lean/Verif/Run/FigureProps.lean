import Verif.Run.FigureModel
import Verif.Log.PlotProps

/-! # C88: the figures of a batch run - settings and curves -/

namespace Mapleaf.Run.Fig
open Mapleaf Mapleaf.Str Mapleaf.LogM Mapleaf.Path
open Mapleaf.Rocket (Reader)

variable {K : Type}

/-! ## reading -/

/-- The dictionary says `v` for the key, or does not have the key and `v` is the default. -/
def Says (r : Reader K) (key default v : Str) : Prop := r.text key = .ok v ∨ r.text key = .error .keyError ∧ v = default

theorem tryText_ok_iff (r : Reader K) (key default v : Str) : tryText r key default = .ok v ↔ Says r key default v := by
  unfold tryText Says
  cases h : r.text key with
  | ok s => simp
  | error e => cases e <;> simp [eq_comm]

/-- The same for a number. -/
def SaysNumber (r : Reader K) (key : Str) (default v : K) : Prop :=
  (∃ t, r.text key = .ok t ∧ r.float t = some v) ∨ r.text key = .error .keyError ∧ v = default

theorem tryNumber_ok_iff (r : Reader K) (key : Str) (default v : K) :
    tryNumber r key default = .ok v ↔ SaysNumber r key default v := by
  unfold tryNumber SaysNumber Reader.tryGetFloat Reader.getFloat
  cases h : r.text key with
  | ok s =>
    cases hf : r.float s with
    | some x => simp [bind, Except.bind, hf]
    | none => simp [bind, Except.bind, hf]
  | error e => cases e <;> simp [bind, Except.bind, eq_comm]

/-- **C88.** A label is used as it is written, unless it contains the control character 7. -/
theorem label_kept (s : Str) (h : Char.ofNat 7 ∉ s) : latexLabel s = s := by
  unfold latexLabel
  rw [if_neg]
  rintro rfl
  exact h (by simp)

example : Char.ofNat 7 ∉ "$\\alpha$".toList := by decide

/-- what a text of limits means: the word `False`, or at least two words of which the first two are numbers -/
def Limits (float : Str → Option K) (text : Str) (lim : Option (K × K)) (fit : Bool) : Prop :=
  (∃ rest, wsSplit text = "False".toList :: rest ∧ lim = none ∧ fit = decide (rest = [])) ∨
  ∃ a b rest lo hi, wsSplit text = a :: b :: rest ∧ a ≠ "False".toList ∧ float a = some lo ∧ float b = some hi ∧
    lim = some (lo, hi) ∧ fit = false

theorem limits_ok_iff (float : Str → Option K) (text : Str) (l : Option (K × K) × Bool) :
    limits float text = .ok l ↔ Limits float text l.1 l.2 := by
  obtain ⟨lim, fit⟩ := l
  unfold limits Limits
  generalize "False".toList = F
  cases h : wsSplit text with
  | nil => simp
  | cons a t =>
    dsimp only
    by_cases ha : a = F
    · subst ha
      rw [if_pos rfl]
      constructor
      · intro e
        injection e with e
        injection e with e1 e2
        exact Or.inl ⟨t, rfl, e1.symm, e2.symm⟩
      · rintro (⟨rest, h1, rfl, rfl⟩ | ⟨a', b, rest, lo, hi, h1, h2, _⟩)
        · injection h1 with _ h1; rw [h1]
        · injection h1 with h1 _; exact absurd h1.symm h2
    · rw [if_neg ha]
      constructor
      · intro e
        cases hf : float a with
        | none => rw [hf] at e; exact nomatch e
        | some lo =>
          rw [hf] at e
          cases t with
          | nil => exact nomatch e
          | cons b t =>
            dsimp only at e
            cases hg : float b with
            | none => rw [hg] at e; exact nomatch e
            | some hi =>
              rw [hg] at e
              injection e with e
              injection e with e1 e2
              exact Or.inr ⟨a, b, t, lo, hi, rfl, ha, hf, hg, e1.symm, e2.symm⟩
      · rintro (⟨rest, h1, _⟩ | ⟨a', b, rest, lo, hi, h1, h2, h3, h4, rfl, rfl⟩)
        · injection h1 with h1 _; exact absurd h1 ha
        · injection h1 with h1 h1'; subst h1; subst h1'
          simp only [h3, h4]

/-- the labels: those written, continued by the specifications not yet used; `None` for none at all -/
theorem legendLabels_spec (text : Str) (n : Nat) (specs : List Str) (hn : n ≤ specs.length) :
    (text = "None".toList → legendLabels text n specs = List.replicate n none) ∧
    (text ≠ "None".toList → (∀ (i : ℕ) l, (splitC ',' text)[i]? = some l → (legendLabels text n specs)[i]? = some (some l)) ∧
      ∀ i : ℕ, (splitC ',' text).length ≤ i → i < n → (legendLabels text n specs)[i]? = specs[i]?.map some) ∧
    n ≤ (legendLabels text n specs).length := by
  have hN : splitC ',' "None".toList = ["None".toList] := by decide +kernel
  unfold legendLabels
  dsimp only
  refine ⟨?_, ?_, ?_⟩
  · rintro rfl
    rw [hN]
    generalize "None".toList = x
    simp
  · intro h
    have h' : splitC ',' text ≠ ["None".toList] := by
      rw [← hN]; exact fun e => h (splitC_injective ',' e)
    rw [if_pos h']
    refine ⟨fun i l hl => ?_, fun i h1 h2 => ?_⟩
    · rw [List.getElem?_map, List.getElem?_append_left (List.getElem?_eq_some_iff.1 hl).1, hl]; rfl
    · rw [List.getElem?_map, List.getElem?_append_right h1, List.getElem?_drop, List.getElem?_take]
      rw [show (splitC ',' text).length + (i - (splitC ',' text).length) = i by omega, if_pos h2]
  · split
    · rw [List.length_map, List.length_append, List.length_drop, List.length_take]; omega
    · simp

/-- **C88.** The settings of a figure: it needs columns to plot and numbers where numbers are read; defaults replace what is not written;
the column for `x` is added when it is not among the columns, formats are filled up with empty ones. -/
theorem setUp_ok_iff [OfNat K 0] [OfNat K 1] (known : Str → Bool) (r : Reader K) (s : Settings K) :
    setUp known r = .ok s ↔ ∃ columns first rest formats colors labels xl yl xs ys xLabel yLabel,
      Says r "columnsToPlot".toList [] columns ∧ wsSplit columns = first :: rest ∧
      Says r "xColumnName".toList "Time(s)".toList s.x ∧
      s.specs = (if s.x ∈ first :: rest then first :: rest else (first :: rest) ++ [s.x]) ∧
      Says r "lineFormat".toList "y--".toList formats ∧
      s.formats = wsSplit formats ++ List.replicate ((first :: rest).length - (wsSplit formats).length) [] ∧
      Says r "lineColors".toList [] colors ∧ s.colors = wsSplit colors ∧
      Says r "legendLabel".toList first labels ∧ s.labels = legendLabels labels (first :: rest).length s.specs ∧
      SaysNumber r "scalingFactor".toList 1 s.scale ∧ SaysNumber r "offset".toList 0 s.offset ∧
      Says r "xLimits".toList "False".toList xl ∧ Limits r.float xl s.xLim s.fitX ∧
      Says r "yLimits".toList "False".toList yl ∧ Limits r.float yl s.yLim s.fitY ∧
      Says r "yScale".toList "linear".toList ys ∧ (ys = "linear".toList ∨ known ys = true) ∧
      Says r "xScale".toList "linear".toList xs ∧ (xs = "linear".toList ∨ known xs = true) ∧
      s.xScale = "linear".toList ∧ s.yScale = (if xs = "linear".toList then ys else xs) ∧
      Says r "xLabel".toList s.x xLabel ∧ s.xLabel = latexLabel xLabel ∧
      Says r "yLabel".toList first yLabel ∧ s.yLabel = latexLabel yLabel := by
  simp only [← tryText_ok_iff, ← tryNumber_ok_iff]
  unfold setUp
  generalize "columnsToPlot".toList = k1
  generalize "xColumnName".toList = k2
  generalize "lineFormat".toList = k3
  generalize "lineColors".toList = k4
  generalize "legendLabel".toList = k5
  generalize "scalingFactor".toList = k6
  generalize "offset".toList = k7
  generalize "xLimits".toList = k8
  generalize "yLimits".toList = k9
  generalize "yScale".toList = k10
  generalize "xScale".toList = k11
  generalize "xLabel".toList = k12
  generalize "yLabel".toList = k13
  generalize "Time(s)".toList = d1
  generalize "y--".toList = d2
  generalize "False".toList = d3
  generalize "linear".toList = d4
  have key : ∀ {α β : Type} (x : Except PyErr α) (f : α → Except PyErr β) (b : β), (x >>= f) = .ok b ↔ ∃ a, x = .ok a ∧ f a = .ok b := by
    intro α β x f b
    cases x <;> simp [bind, Except.bind]
  constructor
  · intro h
    obtain ⟨columns, h1, h⟩ := (key _ _ _).1 h
    dsimp only at h
    cases hw : wsSplit columns with
    | nil => rw [hw] at h; exact nomatch h
    | cons first rest =>
      rw [hw] at h
      dsimp only at h
      obtain ⟨x, h2, h⟩ := (key _ _ _).1 h
      obtain ⟨formats, h3, h⟩ := (key _ _ _).1 h
      obtain ⟨colors, h4, h⟩ := (key _ _ _).1 h
      obtain ⟨labels, h5, h⟩ := (key _ _ _).1 h
      obtain ⟨scale, h6, h⟩ := (key _ _ _).1 h
      obtain ⟨offset, h7, h⟩ := (key _ _ _).1 h
      obtain ⟨xl, h8, h⟩ := (key _ _ _).1 h
      obtain ⟨xl', h8', h⟩ := (key _ _ _).1 h
      obtain ⟨yl, h9, h⟩ := (key _ _ _).1 h
      obtain ⟨yl', h9', h⟩ := (key _ _ _).1 h
      obtain ⟨ys, h10, h⟩ := (key _ _ _).1 h
      split at h
      · exact nomatch h
      rename_i hys
      obtain ⟨xs, h11, h⟩ := (key _ _ _).1 h
      split at h
      · exact nomatch h
      rename_i hxs
      obtain ⟨xLabel, h12, h⟩ := (key _ _ _).1 h
      obtain ⟨yLabel, h13, h⟩ := (key _ _ _).1 h
      injection h with h
      subst h
      refine ⟨columns, first, rest, formats, colors, labels, xl, yl, xs, ys, xLabel, yLabel, h1, hw, h2, rfl, h3, rfl, h4, rfl, h5, rfl,
        h6, h7, h8, (limits_ok_iff _ _ _).1 h8', h9, (limits_ok_iff _ _ _).1 h9', h10, ?_, h11, ?_, rfl, ?_, h12, rfl, h13, rfl⟩
      · by_cases e : ys = d4
        · exact Or.inl e
        · exact Or.inr (by simpa using fun hc => hys ⟨e, hc⟩)
      · by_cases e : xs = d4
        · exact Or.inl e
        · exact Or.inr (by simpa using fun hc => hxs ⟨e, hc⟩)
      · dsimp only
        by_cases e : xs = d4 <;> simp [e]
  · rintro ⟨columns, first, rest, formats, colors, labels, xl, yl, xs, ys, xLabel, yLabel, h1, hw, h2, hs, h3, hf, h4, hc, h5, hl,
        h6, h7, h8, h8', h9, h9', h10, hys, h11, hxs, hx, hy, h12, hxl, h13, hyl⟩
    obtain ⟨specs, x, fs, cs, ls, scale, offset, xLim, fitX, yLim, fitY, xsc, ysc, xlab, ylab⟩ := s
    dsimp only at *
    have e8 := (limits_ok_iff r.float xl (xLim, fitX)).2 h8'
    have e9 := (limits_ok_iff r.float yl (yLim, fitY)).2 h9'
    rw [h1]
    simp only [bind, Except.bind]
    rw [hw]
    simp only
    rw [h2]
    simp only
    rw [h3]
    simp only
    rw [h4]
    simp only
    rw [h5]
    simp only
    rw [h6]
    simp only
    rw [h7]
    simp only
    rw [h8]
    simp only
    rw [e8]
    simp only
    rw [h9]
    simp only
    rw [e9]
    simp only
    rw [h10]
    simp only
    rw [if_neg (by rintro ⟨a, b⟩; rcases hys with h | h; exact a h; rw [h] at b; exact nomatch b)]
    rw [h11]
    simp only
    rw [if_neg (by rintro ⟨a, b⟩; rcases hxs with h | h; exact a h; rw [h] at b; exact nomatch b)]
    rw [h12]
    simp only
    rw [h13]
    simp only
    rw [hl, hs, hf, hc, hx, hy, hxl, hyl]
    by_cases e : xs = d4 <;> simp [e]

/-- **C88** violated: the scale asked for `x` is given to the `y` axis (also over a scale asked for `y`), and the `x` axis stays
linear. -/
theorem xscale_violated [OfNat K 0] [OfNat K 1] (known : Str → Bool) (r : Reader K) (s : Settings K) (h : setUp known r = .ok s)
    (v : Str) (hv : r.text "xScale".toList = .ok v) (hn : v ≠ "linear".toList) :
    s.xScale = "linear".toList ∧ s.yScale = v := by
  obtain ⟨_, _, _, _, _, _, _, _, xs, ys, _, _, h⟩ := (setUp_ok_iff known r s).1 h
  obtain ⟨-, -, -, -, -, -, -, -, -, -, -, -, -, -, -, -, -, -, h1, -, h2, h3, -⟩ := h
  have : xs = v := by
    rcases h1 with h1 | ⟨h1, _⟩
    · rw [hv] at h1; injection h1 with h1; exact h1.symm
    · rw [hv] at h1; exact nomatch h1
  subst this
  exact ⟨h2, by rw [h3, if_neg hn]⟩

/-- **C88** violated: a plot without columns of simulation results - with comparison data only, say - ends the whole batch with a
`TypeError`. -/
theorem no_columns_violated [OfNat K 0] [OfNat K 1] (known : Str → Bool) (r : Reader K)
    (h : r.text "columnsToPlot".toList = .error .keyError) : setUp known r = .error .typeError := by
  unfold setUp tryText
  rw [h]
  rfl

/-! ## drawing -/

theorem popX_found (name : Str) (xs : List K) (b : Sheet K) : ∀ (a : Sheet K), (∀ c ∈ a, c.1 ≠ name) →
    popX name (a ++ (name, xs) :: b) = (some xs, a ++ b)
  | [], _ => by simp [popX]
  | c :: a, h => by
    have h1 := popX_found name xs b a (fun d hd => h d (List.mem_cons_of_mem _ hd))
    rw [List.cons_append, popX, if_neg (h c List.mem_cons_self), h1]; rfl

theorem popX_absent (name : Str) : ∀ (a : Sheet K), (∀ c ∈ a, c.1 ≠ name) → popX name a = (none, a)
  | [], _ => rfl
  | c :: a, h => by
    rw [popX, if_neg (h c List.mem_cons_self), popX_absent name a (fun d hd => h d (List.mem_cons_of_mem _ hd))]

/-- either there is no such column, or it is split at the first -/
theorem popX_cases (name : Str) (cols : Sheet K) : (∀ c ∈ cols, c.1 ≠ name) ∨
    ∃ a xs b, cols = a ++ (name, xs) :: b ∧ ∀ c ∈ a, c.1 ≠ name := by
  induction cols with
  | nil => exact Or.inl (by simp)
  | cons c cols ih =>
    by_cases hc : c.1 = name
    · exact Or.inr ⟨[], c.2, cols, by rw [← hc]; rfl, by simp⟩
    · rcases ih with h | ⟨a, xs, b, rfl, h⟩
      · left
        intro d hd
        rcases List.mem_cons.1 hd with rfl | hd
        · exact hc
        · exact h d hd
      · refine Or.inr ⟨c :: a, xs, b, rfl, ?_⟩
        intro d hd
        rcases List.mem_cons.1 hd with rfl | hd
        · exact hc
        · exact h d hd

/-- The mark for column number `i`: a line in the format of that number when there are two points or more, else points; colour, label and
width of that number. -/
def IsMark (st : Style K) (xs : List K) (i : Nat) (ys : List K) (m : Mark K) : Prop :=
  m.x = xs ∧ m.y = ys ∧ xs.length = ys.length ∧ m.color = st.colors[i]? ∧ st.labels[i]? = some m.label ∧ m.width = st.width ∧
  (1 < xs.length → m.format.isSome ∧ st.formats[i]? = m.format) ∧ (xs.length ≤ 1 → m.format = none)

theorem drawOne_ok_iff (st : Style K) (xs : List K) (i : Nat) (ys : List K) (m : Mark K) :
    drawOne st xs i ys = .ok m ↔ IsMark st xs i ys m := by
  obtain ⟨mx, my, mf, mc, ml, mw⟩ := m
  unfold drawOne IsMark
  cases hl : st.labels[i]? with
  | none => simp
  | some label =>
    dsimp only
    by_cases h1 : 1 < xs.length
    · rw [if_pos h1]
      cases hf : st.formats[i]? with
      | none => 
        simp only [reduceCtorEq, false_iff]
        rintro ⟨-, -, -, -, -, -, h, -⟩
        obtain ⟨a, b⟩ := h h1
        rw [← b] at a; exact nomatch a
      | some f =>
        dsimp only
        by_cases he : xs.length = ys.length
        · rw [if_neg (by simpa using he)]
          constructor
          · intro h; injection h with h; injection h with e1 e2 e3 e4 e5 e6
            subst e1 e2 e3 e4 e5 e6
            exact ⟨rfl, rfl, he, rfl, rfl, rfl, fun _ => ⟨rfl, rfl⟩, fun h => absurd h1 (not_lt.2 h)⟩
          · rintro ⟨rfl, rfl, -, rfl, e5, rfl, h, -⟩
            obtain ⟨_, b⟩ := h h1
            injection e5 with e5
            rw [← b, e5]
        · rw [if_pos he]
          simp [he]
    · rw [if_neg h1]
      by_cases he : xs.length = ys.length
      · rw [if_neg (by simpa using he)]
        constructor
        · intro h; injection h with h; injection h with e1 e2 e3 e4 e5 e6
          subst e1 e2 e3 e4 e5 e6
          exact ⟨rfl, rfl, he, rfl, rfl, rfl, fun h => absurd h h1, fun _ => rfl⟩
        · rintro ⟨rfl, rfl, -, rfl, e5, rfl, -, h⟩
          injection e5 with e5
          rw [h (not_lt.1 h1), e5]
      · rw [if_pos he]
        simp [he]

theorem drawFrom_ok_iff (st : Style K) (xs : List K) : ∀ (cols : Sheet K) (i : Nat) (ms : List (Mark K)),
    drawFrom st xs i cols = .ok ms ↔ ms.length = cols.length ∧
      ∀ j c m, cols[j]? = some c → ms[j]? = some m → IsMark st xs (i + j) c.2 m
  | [], i, ms => by
    unfold drawFrom
    constructor
    · intro h; injection h with h; subst h; simp
    · rintro ⟨h, -⟩; rw [List.length_eq_zero_iff.1 h]
  | c :: cols, i, ms => by
    unfold drawFrom
    simp only [bind, Except.bind]
    constructor
    · intro h
      cases h1 : drawOne st xs i c.2 with
      | error e => rw [h1] at h; exact nomatch h
      | ok m =>
        rw [h1] at h
        dsimp only at h
        cases h2 : drawFrom st xs (i + 1) cols with
        | error e => rw [h2] at h; exact nomatch h
        | ok rest =>
          rw [h2] at h
          injection h with h
          subst h
          obtain ⟨g1, g2⟩ := (drawFrom_ok_iff st xs cols (i + 1) rest).1 h2
          refine ⟨by simp [g1], fun j d m' hd hm => ?_⟩
          cases j with
          | zero =>
            simp only [List.getElem?_cons_zero, Option.some.injEq] at hd hm
            subst hd hm
            exact (drawOne_ok_iff ..).1 h1
          | succ j =>
            simp only [List.getElem?_cons_succ] at hd hm
            have := g2 j d m' hd hm
            rwa [show i + (j + 1) = i + 1 + j by omega]
    · rintro ⟨h1, h2⟩
      cases ms with
      | nil => simp at h1
      | cons m rest =>
        have e1 := (drawOne_ok_iff st xs i c.2 m).2 (by simpa using h2 0 c m rfl rfl)
        have e2 := (drawFrom_ok_iff st xs cols (i + 1) rest).2 ⟨by simpa using h1, fun j d m' hd hm => by
          have := h2 (j + 1) d m' (by simpa using hd) (by simpa using hm)
          rwa [show i + (j + 1) = i + 1 + j by omega] at this⟩
        rw [e1]
        dsimp only
        rw [e2]

/-- **C88.** With the column for `x` among the columns, every other column becomes one mark, scaled and shifted, in the style of its number; the
axis is fitted to the first and last `x` when that is asked for. -/
theorem plotData_ok_iff [Mul K] [Add K] (a b : Sheet K) (x : Str) (xs : List K) (ha : ∀ c ∈ a, c.1 ≠ x) (st : List Str → Style K)
    (scale offset : K) (fit : Bool) (d : Drawn K) :
    plotData (a ++ (x, xs) :: b) x st scale offset fit = .ok d ↔
      d.x = xs ∧ d.cols = (a ++ b).map (fun c => (c.1, c.2.map fun v => scale * v + offset)) ∧
      (if fit then ∃ p q, xs.head? = some p ∧ xs.getLast? = some q ∧ d.fit = some (p, q) else d.fit = none) ∧
      d.marks.length = (a ++ b).length ∧
      ∀ i c m, (a ++ b)[i]? = some c → d.marks[i]? = some m →
        IsMark (st ((a ++ b).map Prod.fst)) xs i (c.2.map fun v => scale * v + offset) m := by
  obtain ⟨ms, dx, dc, df⟩ := d
  unfold plotData
  rw [popX_found x xs b a ha]
  simp only [bind, Except.bind, Option.getD_some]
  have hnames : ((a ++ b).map (fun c => (c.1, c.2.map fun v => scale * v + offset))).map Prod.fst = (a ++ b).map Prod.fst := by
    rw [List.map_map]; rfl
  rw [hnames]
  have hd := drawFrom_ok_iff (st ((a ++ b).map Prod.fst)) xs ((a ++ b).map (fun c => (c.1, c.2.map fun v => scale * v + offset))) 0
  have hmarks : ∀ ms : List (Mark K), drawFrom (st ((a ++ b).map Prod.fst)) xs 0
        ((a ++ b).map (fun c => (c.1, c.2.map fun v => scale * v + offset))) = .ok ms ↔ ms.length = (a ++ b).length ∧
      ∀ i c m, (a ++ b)[i]? = some c → ms[i]? = some m →
        IsMark (st ((a ++ b).map Prod.fst)) xs i (c.2.map fun v => scale * v + offset) m := by
    intro ms
    rw [hd ms, List.length_map]
    refine and_congr_right fun _ => ⟨fun h i c m hc hm => ?_, fun h i c m hc hm => ?_⟩
    · have := h i _ m (by rw [List.getElem?_map, hc]; rfl) hm
      simpa using this
    · rw [List.getElem?_map, Option.map_eq_some_iff] at hc
      obtain ⟨c', h1, rfl⟩ := hc
      simpa using h i c' m h1 hm
  cases fit with
  | true =>
    simp only [if_true]
    cases hh : xs.head? with
    | none => simp
    | some p =>
      cases hl : xs.getLast? with
      | none => simp
      | some q =>
        dsimp only
        constructor
        · intro h
          cases hm : drawFrom (st ((a ++ b).map Prod.fst)) xs 0 ((a ++ b).map (fun c => (c.1, c.2.map fun v => scale * v + offset))) with
          | error e => rw [hm] at h; exact nomatch h
          | ok ms' =>
            rw [hm] at h
            injection h with h
            injection h with e1 e2 e3 e4
            subst e1 e2 e3 e4
            exact ⟨rfl, rfl, ⟨p, q, rfl, rfl, rfl⟩, (hmarks _).1 hm⟩
        · rintro ⟨rfl, rfl, ⟨p', q', e1, e2, rfl⟩, h⟩
          rw [(hmarks ms).2 h]
          injection e1 with e1
          injection e2 with e2
          rw [e1, e2]
  | false =>
    simp only [Bool.false_eq_true, if_false]
    constructor
    · intro h
      cases hm : drawFrom (st ((a ++ b).map Prod.fst)) xs 0 ((a ++ b).map (fun c => (c.1, c.2.map fun v => scale * v + offset))) with
      | error e => rw [hm] at h; exact nomatch h
      | ok ms' =>
        rw [hm] at h
        injection h with h
        injection h with e1 e2 e3 e4
        subst e1 e2 e3 e4
        exact ⟨rfl, rfl, rfl, (hmarks _).1 hm⟩
    · rintro ⟨rfl, rfl, rfl, h⟩
      rw [(hmarks ms).2 h]

/-- **C88** violated: results without the column for `x` raise an `IndexError` when the axis is to be fitted (the default), which ends the whole
batch. -/
theorem missing_x_violated [Mul K] [Add K] (cols : Sheet K) (x : Str) (h : ∀ c ∈ cols, c.1 ≠ x) (st : List Str → Style K) (scale offset : K) :
    plotData cols x st scale offset true = .error .indexError := by
  unfold plotData
  rw [popX_absent x cols h]
  rfl

end Mapleaf.Run.Fig
