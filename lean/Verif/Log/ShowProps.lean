import Verif.Log.ShowModel
import Verif.Log.PlotProps
import Verif.Log.ReplayDrawProps

/-!
# The pictures shown after a simulation

**C106**: after a simulation one picture is shown for every word of `SimControl.plot`, of the kind the word names, and the flights
handed back are the ones that were flown.
-/

namespace Mapleaf.Show
open Mapleaf Mapleaf.Str Mapleaf.LogM Mapleaf.Motion Mapleaf.Replay

variable {V : Type}

/-- The word of `SimControl.plot` a picture belongs to -/
def Picture.word : Picture V → Str
  | .animation _ => "FlightAnimation".toList
  | .paths _ => "FlightPaths".toList
  | .globe _ => "FlightPaths".toList
  | .lines w _ => w
  | .noColumns w => w
  | .noLogs w => w

/-- What a plot of logged columns looks like: the lines drawn from the logs as they are on disk, or a message if there are none -/
def FromLogs (rx : Regex) (files : Files V) (logs : Option (List Str)) (w : Str) (p : Picture V) : Prop :=
  (logs = none ∧ p = .noLogs w) ∨
    ∃ paths ls, logs = some paths ∧ (plotFromLogFiles rx files paths w []).1 = .ok ls ∧
      p = if ls.length = 0 then .noColumns w else .lines w ls

theorem plotLogs_fresh (rx : Regex) (files : Files V) (specs : List Str) : ∀ (ps excl : List Str) (c : SheetCache V), Dict.WF c →
    Fresh files c → (plotLogs rx files specs ps excl c).1 = (plotLogs rx files specs ps excl []).1 ∧
      Dict.WF (plotLogs rx files specs ps excl c).2 ∧ Fresh files (plotLogs rx files specs ps excl c).2 := by
  have same : ∀ (p : Str) (excl : List Str) (c c' : SheetCache V), Dict.WF c → Fresh files c → Dict.WF c' → Fresh files c' →
      (tryPlotting rx files p specs excl c).1 = (tryPlotting rx files p specs excl c').1 := by
    intro p excl c c' hw hf hw' hf'
    have h1 := (load_fresh hw hf true p).1
    have h2 := (load_fresh hw' hf' true p).1
    unfold tryPlotting getLoggedColumns
    rcases hl : loadSheet files true p c with ⟨r, d⟩
    rcases hl' : loadSheet files true p c' with ⟨r', d'⟩
    rw [hl] at h1
    rw [hl'] at h2
    simp only at h1 h2
    subst h1 h2
    cases files p with
    | error e => rfl
    | ok df =>
      dsimp only
      cases pick rx excl df (withTime specs) <;> rfl
  have gen : ∀ (ps excl : List Str) (c c' : SheetCache V), Dict.WF c → Fresh files c → Dict.WF c' → Fresh files c' →
      (plotLogs rx files specs ps excl c).1 = (plotLogs rx files specs ps excl c').1 ∧
      Dict.WF (plotLogs rx files specs ps excl c).2 ∧ Fresh files (plotLogs rx files specs ps excl c).2 := by
    intro ps
    induction ps with
    | nil => intro excl c c' hw hf _ _; exact ⟨rfl, hw, hf⟩
    | cons p ps ih =>
      intro excl c c' hw hf hw' hf'
      have h := same p excl c c' hw hf hw' hf'
      obtain ⟨w1, f1⟩ := tryPlotting_cache (rx := rx) (path := p) hw hf specs excl
      obtain ⟨w2, f2⟩ := tryPlotting_cache (rx := rx) (path := p) hw' hf' specs excl
      unfold plotLogs
      rcases hl : tryPlotting rx files p specs excl c with ⟨r, d⟩
      rcases hl' : tryPlotting rx files p specs excl c' with ⟨r', d'⟩
      rw [hl] at h w1 f1
      rw [hl'] at h w2 f2
      simp only at h w1 f1 w2 f2
      subst h
      cases r with
      | error e => exact ⟨rfl, w1, f1⟩
      | ok ls =>
        dsimp only
        obtain ⟨i1, i2, i3⟩ := ih (excl ++ ls.map PlotLine.label) d d' w1 f1 w2 f2
        rcases hm : plotLogs rx files specs ps (excl ++ ls.map PlotLine.label) d with ⟨a, b⟩
        rcases hm' : plotLogs rx files specs ps (excl ++ ls.map PlotLine.label) d' with ⟨a', b'⟩
        rw [hm] at i1 i2 i3
        rw [hm'] at i1
        simp only at i1 i2 i3
        subst i1
        cases a <;> exact ⟨rfl, i2, i3⟩
  intro ps excl c hw hf
  exact gen ps excl c [] hw hf (by simp [Dict.WF, Dict.keys]) (by simp [Fresh, Dict.get?])

theorem columnPicture_spec (rx : Regex) (files : Files V) (logs : Option (List Str)) (c : SheetCache V) (hw : Dict.WF c)
    (hf : Fresh files c) (w : Str) :
    (∀ p, (columnPicture rx files logs c w).1 = .ok p ↔ FromLogs rx files logs w p) ∧
      Dict.WF (columnPicture rx files logs c w).2 ∧ Fresh files (columnPicture rx files logs c w).2 := by
  unfold columnPicture FromLogs
  cases logs with
  | none =>
    refine ⟨fun p => ?_, hw, hf⟩
    constructor
    · intro h; cases h; exact Or.inl ⟨rfl, rfl⟩
    · rintro (⟨_, rfl⟩ | ⟨_, _, h, _⟩)
      · rfl
      · cases h
  | some paths =>
    obtain ⟨h1, h2, h3⟩ := plotLogs_fresh rx files (plotSpecs w) paths [] c hw hf
    unfold plotFromLogFiles
    dsimp only
    rcases hl : plotLogs rx files (plotSpecs w) paths [] c with ⟨r, d⟩
    rcases hl' : plotLogs rx files (plotSpecs w) paths [] [] with ⟨r', d'⟩
    rw [hl] at h1 h2 h3
    rw [hl'] at h1
    simp only at h1 h2 h3
    subst h1
    rcases r with e | ls
    · refine ⟨fun p => ?_, h2, h3⟩
      constructor
      · intro h; cases h
      · rintro (⟨h, _⟩ | ⟨paths', ls, h, h', _⟩)
        · cases h
        · cases h; rw [hl'] at h'; cases h'
    · have key : ∀ p : Picture V, p = (if ls.length = 0 then .noColumns w else .lines w ls) ↔
          (some paths = none ∧ p = .noLogs w ∨ ∃ paths' ls', some paths = some paths' ∧
            (plotLogs rx files (plotSpecs w) paths' [] []).1 = .ok ls' ∧
            p = if ls'.length = 0 then .noColumns w else .lines w ls') := by
        intro p
        constructor
        · intro h; exact Or.inr ⟨paths, ls, rfl, by rw [hl'], h⟩
        · rintro (⟨h, _⟩ | ⟨paths', ls', h, h', h''⟩)
          · cases h
          · cases h; rw [hl'] at h'; cases h'; exact h''
      cases ls with
      | nil =>
        refine ⟨fun p => ?_, h2, h3⟩
        rw [← key p]
        simp [eq_comm]
      | cons l ls =>
        refine ⟨fun p => ?_, h2, h3⟩
        rw [← key p]
        simp [eq_comm]

theorem columnPictures_iff (rx : Regex) (files : Files V) (logs : Option (List Str)) : ∀ (ws : List Str) (c : SheetCache V), Dict.WF c →
    Fresh files c → ∀ ps, columnPictures rx files logs c ws = .ok ps ↔ List.Forall₂ (FromLogs rx files logs) ws ps := by
  intro ws
  induction ws with
  | nil =>
    intro c _ _ ps
    constructor
    · intro h; cases h; exact .nil
    · intro h; cases h; rfl
  | cons w ws ih =>
    intro c hw hf ps
    obtain ⟨h1, h2, h3⟩ := columnPicture_spec rx files logs c hw hf w
    unfold columnPictures
    rcases hl : columnPicture rx files logs c w with ⟨r, d⟩
    rw [hl] at h1 h2 h3
    simp only at h1 h2 h3
    rcases r with e | p
    · constructor
      · intro h; cases h
      · intro h
        obtain ⟨p, ps', hp, _, rfl⟩ := List.forall₂_cons_left_iff.1 h
        cases (h1 p).2 hp
    · dsimp only
      have hih := ih d h2 h3
      rcases hm : columnPictures rx files logs d ws with e | qs
      · constructor
        · intro h; cases h
        · intro h
          obtain ⟨p, ps', _, hp, rfl⟩ := List.forall₂_cons_left_iff.1 h
          have := (hih ps').2 hp
          rw [hm] at this; cases this
      · constructor
        · intro h; cases h
          exact .cons ((h1 p).1 rfl) ((hih qs).1 hm)
        · intro h
          obtain ⟨p', ps', h4, hp, rfl⟩ := List.forall₂_cons_left_iff.1 h
          have e1 := (h1 p').2 h4
          have e2 := (hih ps').2 hp
          rw [hm] at e2
          cases e1; cases e2; rfl

/-- **C106** Nothing is shown, and the flights are kept, if the only word is `None`. -/
theorem none_shown (rx : Regex) (files : Files V) (mayavi : Bool) (text earth : Str) (flights : List Flight)
    (logs : Option (List Str)) (c : SheetCache V) (h : wsSplit text = ["None".toList]) :
    plotResults rx files mayavi text earth flights logs c = .ok ([], flights) := by
  unfold plotResults
  dsimp only
  rw [if_pos h]

example : wsSplit " None ".toList = ["None".toList] := by decide +kernel

/-- The picture for `FlightPaths`: over the globe if the earth is round and Mayavi is installed, else in a box -/
def PathsShown (mayavi : Bool) (earth : Str) (flights : List Flight) (p : Picture V) : Prop :=
  if earth = "None".toList ∨ earth = "Flat".toList ∨ mayavi = false then ∃ q, pathPlot flights = .ok q ∧ p = .paths q
  else p = .globe (flights.map fun f => f.states.map Body.pos)

theorem pathPicture_iff (mayavi : Bool) (earth : Str) (flights : List Flight) (p : Picture V) :
    pathPicture mayavi earth flights = .ok p ↔ PathsShown mayavi earth flights p := by
  unfold pathPicture PathsShown
  by_cases h : earth = "None".toList ∨ earth = "Flat".toList ∨ mayavi = false
  · rw [if_pos h, if_pos h]
    rcases pathPlot flights with e | q
    · constructor
      · intro h; cases h
      · rintro ⟨_, h, _⟩; cases h
    · constructor
      · intro h; cases h; exact ⟨q, rfl, rfl⟩
      · rintro ⟨_, h, rfl⟩; cases h; rfl
  · rw [if_neg h, if_neg h]
    constructor
    · intro h; cases h; rfl
    · rintro rfl; rfl

/-- **C106** What is shown: first the animation, if asked for, of the flights as resampled by it; then the flight paths, if asked for,
of the flights as they are then; then one plot of logged columns per remaining word, in the order of the words. -/
theorem shown_iff (rx : Regex) (files : Files V) (mayavi : Bool) (text earth : Str) (flights out : List Flight)
    (logs : Option (List Str)) (c : SheetCache V) (hw : Dict.WF c) (hf : Fresh files c) (hn : wsSplit text ≠ ["None".toList])
    (pics : List (Picture V)) :
    plotResults rx files mayavi text earth flights logs c = .ok (pics, out) ↔
      ∃ p1 p2 p3, pics = p1 ++ p2 ++ p3 ∧
        ("FlightAnimation".toList ∉ wsSplit text → p1 = [] ∧ out = flights) ∧
        ("FlightAnimation".toList ∈ wsSplit text → p1 = [.animation out] ∧ ∃ r, setUp flights = .ok (out, r)) ∧
        ("FlightPaths".toList ∉ wsSplit text → p2 = []) ∧
        ("FlightPaths".toList ∈ wsSplit text → ∃ p, p2 = [p] ∧ PathsShown mayavi earth out p) ∧
        List.Forall₂ (FromLogs rx files logs) (((wsSplit text).erase "FlightAnimation".toList).erase "FlightPaths".toList) p3 := by
  have hne : ("FlightPaths".toList : Str) ≠ "FlightAnimation".toList := by decide +kernel
  unfold plotResults
  dsimp only
  rw [if_neg hn]
  generalize wsSplit text = words
  have hmem : "FlightPaths".toList ∈ words.erase "FlightAnimation".toList ↔ "FlightPaths".toList ∈ words :=
    List.mem_erase_of_ne hne
  have tail : ∀ (p1 : List (Picture V)) (fl : List Flight) (ws : List Str) (hws : "FlightPaths".toList ∈ ws ↔ "FlightPaths".toList ∈ words)
      (hew : ws = words.erase "FlightAnimation".toList),
      ((match drawn mayavi earth ws fl with
        | .error e => .error e
        | .ok (p2, ws) =>
          match columnPictures rx files logs c ws with
          | .error e => .error e
          | .ok p3 => .ok (p1 ++ p2 ++ p3, fl) : Except PyErr (List (Picture V) × List Flight)) = .ok (pics, out) ↔
        fl = out ∧ ∃ p2 p3, pics = p1 ++ p2 ++ p3 ∧ ("FlightPaths".toList ∉ words → p2 = []) ∧
          ("FlightPaths".toList ∈ words → ∃ p, p2 = [p] ∧ PathsShown mayavi earth out p) ∧
          List.Forall₂ (FromLogs rx files logs) ((words.erase "FlightAnimation".toList).erase "FlightPaths".toList) p3) := by
    intro p1 fl ws hws hew
    unfold drawn
    by_cases h : "FlightPaths".toList ∈ ws
    · rw [if_pos h]
      rcases hp : pathPicture (V := V) mayavi earth fl with e | p
      · dsimp only
        constructor
        · intro h; cases h
        · rintro ⟨rfl, p2, p3, _, _, h2, _⟩
          obtain ⟨p, _, hp'⟩ := h2 (hws.1 h)
          rw [(pathPicture_iff _ _ _ _).2 hp'] at hp; cases hp
      · dsimp only
        have hp' := (pathPicture_iff _ _ _ _).1 hp
        have hc := columnPictures_iff rx files logs (ws.erase "FlightPaths".toList) c hw hf
        rcases hm : columnPictures rx files logs c (ws.erase "FlightPaths".toList) with e | p3
        · dsimp only
          constructor
          · intro h; cases h
          · rintro ⟨rfl, p2, p3, _, _, _, h3⟩
            rw [← hew] at h3
            rw [(hc p3).2 h3] at hm; cases hm
        · dsimp only
          constructor
          · intro h'; cases h'
            exact ⟨rfl, [p], p3, rfl, fun hno => absurd (hws.1 h) hno, fun _ => ⟨p, rfl, hp'⟩, hew ▸ (hc p3).1 hm⟩
          · rintro ⟨rfl, p2, p3', rfl, _, h2, h3⟩
            obtain ⟨q, rfl, hq⟩ := h2 (hws.1 h)
            rw [(pathPicture_iff _ _ _ _).2 hq] at hp; cases hp
            rw [← hew] at h3
            rw [(hc p3').2 h3] at hm; cases hm
            rfl
    · rw [if_neg h]
      dsimp only
      have he : ws.erase "FlightPaths".toList = ws := List.erase_of_not_mem h
      have hc := columnPictures_iff rx files logs ws c hw hf
      rcases hm : columnPictures rx files logs c ws with e | p3
      · dsimp only
        constructor
        · intro h; cases h
        · rintro ⟨rfl, p2, p3, _, _, _, h3⟩
          rw [← hew, he] at h3
          rw [(hc p3).2 h3] at hm; cases hm
      · dsimp only
        constructor
        · intro h'; cases h'
          exact ⟨rfl, [], p3, by simp, fun _ => rfl, fun hy => absurd (hws.2 hy) h, by rw [← hew, he]; exact (hc p3).1 hm⟩
        · rintro ⟨rfl, p2, p3', rfl, h2, _, h3⟩
          have := h2 (fun hy => h (hws.2 hy))
          subst this
          rw [← hew, he] at h3
          rw [(hc p3').2 h3] at hm; cases hm
          rfl
  unfold animated
  by_cases h : "FlightAnimation".toList ∈ words
  · rw [if_pos h]
    rcases hs : setUp flights with e | ⟨fl, r⟩
    · dsimp only
      constructor
      · intro h; cases h
      · rintro ⟨p1, p2, p3, _, _, h2, _⟩
        obtain ⟨_, r, hr⟩ := h2 h
        cases hr
    · dsimp only
      refine (tail [.animation fl] fl _ hmem rfl).trans ?_
      constructor
      · rintro ⟨rfl, p2, p3, h1, h2, h3, h4⟩
        exact ⟨_, p2, p3, h1, fun hno => absurd h hno, fun _ => ⟨rfl, r, rfl⟩, h2, h3, h4⟩
      · rintro ⟨p1, p2, p3, h1, _, h2, h3, h4, h5⟩
        obtain ⟨rfl, r', hr⟩ := h2 h
        cases hr
        exact ⟨rfl, p2, p3, h1, h3, h4, h5⟩
  · rw [if_neg h]
    dsimp only
    have he : words.erase "FlightAnimation".toList = words := List.erase_of_not_mem h
    refine (tail [] flights words Iff.rfl he.symm).trans ?_
    constructor
    · rintro ⟨rfl, p2, p3, h1, h2, h3, h4⟩
      exact ⟨[], p2, p3, h1, fun _ => ⟨rfl, rfl⟩, fun hy => absurd hy h, h2, h3, h4⟩
    · rintro ⟨p1, p2, p3, h1, h2, _, h3, h4, h5⟩
      obtain ⟨rfl, rfl⟩ := h2 h
      exact ⟨rfl, p2, p3, h1, h3, h4, h5⟩

theorem fromLogs_word {rx : Regex} {files : Files V} {logs : Option (List Str)} {w : Str} {p : Picture V}
    (h : FromLogs rx files logs w p) : p.word = w := by
  rcases h with ⟨_, rfl⟩ | ⟨_, ls, _, _, rfl⟩
  · rfl
  · split <;> rfl

/-- **C106** One picture per word: whenever the plots come out, the words their pictures belong to are exactly the words asked for,
each as often as it is asked for. -/
theorem picture_per_word (rx : Regex) (files : Files V) (mayavi : Bool) (text earth : Str) (flights out : List Flight)
    (logs : Option (List Str)) (c : SheetCache V) (hw : Dict.WF c) (hf : Fresh files c) (hn : wsSplit text ≠ ["None".toList])
    (pics : List (Picture V)) (h : plotResults rx files mayavi text earth flights logs c = .ok (pics, out)) :
    (pics.map Picture.word).Perm (wsSplit text) := by
  have hne : ("FlightPaths".toList : Str) ≠ "FlightAnimation".toList := by decide +kernel
  obtain ⟨p1, p2, p3, rfl, a1, a2, b1, b2, h3⟩ := (shown_iff rx files mayavi text earth flights out logs c hw hf hn pics).1 h
  generalize wsSplit text = words at *
  have e3 : p3.map Picture.word = (words.erase "FlightAnimation".toList).erase "FlightPaths".toList := by
    clear h a1 a2 b1 b2
    generalize (words.erase "FlightAnimation".toList).erase "FlightPaths".toList = ws at h3
    induction h3 with
    | nil => rfl
    | cons hp _ ih => rw [List.map_cons, fromLogs_word hp, ih]
  have hmem : "FlightPaths".toList ∈ words.erase "FlightAnimation".toList ↔ "FlightPaths".toList ∈ words :=
    List.mem_erase_of_ne hne
  have step2 : ((p2 ++ p3).map Picture.word).Perm (words.erase "FlightAnimation".toList) := by
    rw [List.map_append, e3]
    by_cases hp : "FlightPaths".toList ∈ words
    · obtain ⟨p, rfl, hp'⟩ := b2 hp
      have : p.word = "FlightPaths".toList := by
        unfold PathsShown at hp'
        split at hp'
        · obtain ⟨q, _, rfl⟩ := hp'; rfl
        · subst hp'; rfl
      rw [List.map_singleton, this, List.singleton_append]
      exact (List.perm_cons_erase (hmem.2 hp)).symm
    · rw [b1 hp, List.erase_of_not_mem (fun hy => hp (hmem.1 hy))]
      exact .refl _
  rw [List.append_assoc, List.map_append]
  by_cases ha : "FlightAnimation".toList ∈ words
  · rw [(a2 ha).1, List.map_singleton, List.singleton_append]
    exact (step2.cons _).trans (List.perm_cons_erase ha).symm
  · rw [(a1 ha).1, List.map_nil, List.nil_append]
    rwa [List.erase_of_not_mem ha] at step2

/-- **C106 partial.** The flights handed back are the ones that were flown, as long as no animation is asked for. Missing: with an
animation, see `flights_replaced_violated`. -/
theorem flights_kept_partial (rx : Regex) (files : Files V) (mayavi : Bool) (text earth : Str) (flights out : List Flight)
    (logs : Option (List Str)) (c : SheetCache V) (hw : Dict.WF c) (hf : Fresh files c) (ha : "FlightAnimation".toList ∉ wsSplit text)
    (pics : List (Picture V)) (h : plotResults rx files mayavi text earth flights logs c = .ok (pics, out)) : out = flights := by
  by_cases hn : wsSplit text = ["None".toList]
  · rw [none_shown rx files mayavi text earth flights logs c hn] at h
    cases h; rfl
  · obtain ⟨p1, p2, p3, _, h2, _⟩ := (shown_iff rx files mayavi text earth flights out logs c hw hf hn pics).1 h
    exact (h2 ha).2

example : "FlightAnimation".toList ∉ wsSplit "Position FlightPaths".toList := by decide +kernel

/-- **C106 violated.** With an animation, the flights handed back are not the ones flown: each has 900 states at equally spaced times,
and each, however short, ends at the latest final time of all. -/
theorem flights_replaced_violated (rx : Regex) (files : Files V) (mayavi : Bool) (text earth : Str) (flights out : List Flight)
    (logs : Option (List Str)) (c : SheetCache V) (hw : Dict.WF c) (hf : Fresh files c) (ha : "FlightAnimation".toList ∈ wsSplit text)
    (T : ℝ) (hT : Latest flights T) (pics : List (Picture V))
    (h : plotResults rx files mayavi text earth flights logs c = .ok (pics, out)) :
    out.length = flights.length ∧ ∀ g ∈ out, g.states.length = 900 ∧ Run.getFlightTime g.times = .ok T := by
  have hn : wsSplit text ≠ ["None".toList] := by
    intro h0; rw [h0] at ha
    exact absurd ha (by decide +kernel)
  obtain ⟨p1, p2, p3, _, _, h2, _⟩ := (shown_iff rx files mayavi text earth flights out logs c hw hf hn pics).1 h
  obtain ⟨_, r, hr⟩ := h2 ha
  have hk : keepN 900 flights = .ok out := by
    unfold setUp at hr
    rcases hk : keepN 900 flights with e | l
    · rw [hk] at hr; cases hr
    · rw [hk] at hr
      cases l with
      | nil => cases hr
      | cons f fs =>
        dsimp only at hr
        rcases hp : plotSize (f.states.map Body.pos) with e | ⟨size, ce⟩
        · rw [hp] at hr; cases hr
        · rw [hp] at hr
          dsimp only at hr
          split at hr
          · cases hr
          · cases hr; rfl
  have ht := flight_time_violated flights out T 900 (by norm_num) hT hk
  obtain ⟨_, T', _, hfo⟩ := (keepN_ok_iff _ _ _).1 hk
  refine ⟨hfo.length_eq.symm, fun g hg => ⟨?_, ht g hg⟩⟩
  obtain ⟨k, hk', rfl⟩ := List.getElem_of_mem hg
  have := hfo.get (i := k) (by rw [hfo.length_eq]; exact hk') hk'
  obtain ⟨_, hs, _⟩ := this
  have hl := hs.length_eq
  simpa using hl.symm

/-- **C106 violated.** The apogee of the flight handed back can be too low: after the default choice of plots (without logs) the hop of
10 m is handed back as a flight that nowhere reaches 10 m. -/
theorem apogee_handed_back_violated (rx : Regex) (files : Files V) (earth : Str) :
    ∃ pics out, plotResults rx files false "Position FlightAnimation".toList earth [hop] none [] = .ok (pics, out) ∧
      (∃ b ∈ hop.states, b.pos.z = 10) ∧ ∀ g ∈ out, ∀ b ∈ g.states, b.pos.z < 10 := by
  obtain ⟨out, ho, h1, h2⟩ := apogee_violated
  obtain ⟨g, gs, size, ce, axis, perps, hs, hk, _⟩ := setUp_total hop [] (by intro f hf; simp at hf; subst hf; exact hop_recorded)
    (by simp [hop])
  rw [ho] at hk
  cases hk
  have hwords : wsSplit "Position FlightAnimation".toList = ["Position".toList, "FlightAnimation".toList] := by decide +kernel
  refine ⟨[.animation (g :: gs), .noLogs "Position".toList], g :: gs, ?_, h1, h2⟩
  refine (shown_iff rx files false _ earth [hop] (g :: gs) none [] (by simp [Dict.WF, Dict.keys])
    (by simp [Fresh, Dict.get?]) (by rw [hwords]; decide +kernel) _).2 ?_
  rw [hwords]
  refine ⟨[.animation (g :: gs)], [], [.noLogs "Position".toList], rfl, fun hno => absurd ?_ hno, fun _ => ⟨rfl, _, hs⟩, fun _ => rfl,
    fun hy => absurd hy ?_, ?_⟩
  · decide +kernel
  · decide +kernel
  · rw [show ((["Position".toList, "FlightAnimation".toList].erase "FlightAnimation".toList).erase "FlightPaths".toList : List Str) =
      ["Position".toList] from by decide +kernel]
    exact .cons (Or.inl ⟨rfl, rfl⟩) .nil

/-- **C106 violated.** `None` next to another word is taken for the name of a column, and so is the second `FlightPaths` or
`FlightAnimation` of a list. -/
theorem odd_words_violated (rx : Regex) (files : Files V) (mayavi : Bool) (text earth : Str) (flights out : List Flight)
    (logs : Option (List Str)) (c : SheetCache V) (hw : Dict.WF c) (hf : Fresh files c) (hn : wsSplit text ≠ ["None".toList])
    (pics : List (Picture V)) (h : plotResults rx files mayavi text earth flights logs c = .ok (pics, out)) :
    ("None".toList ∈ wsSplit text → ∃ p ∈ pics, FromLogs rx files logs "None".toList p) ∧
    (2 ≤ (wsSplit text).count "FlightPaths".toList → ∃ p ∈ pics, FromLogs rx files logs "FlightPaths".toList p) ∧
    (2 ≤ (wsSplit text).count "FlightAnimation".toList → ∃ p ∈ pics, FromLogs rx files logs "FlightAnimation".toList p) := by
  have d1 : ("None".toList : Str) ≠ "FlightAnimation".toList := by decide +kernel
  have d2 : ("None".toList : Str) ≠ "FlightPaths".toList := by decide +kernel
  have d3 : ("FlightPaths".toList : Str) ≠ "FlightAnimation".toList := by decide +kernel
  obtain ⟨p1, p2, p3, rfl, _, _, _, _, h3⟩ := (shown_iff rx files mayavi text earth flights out logs c hw hf hn pics).1 h
  have get : ∀ w, w ∈ ((wsSplit text).erase "FlightAnimation".toList).erase "FlightPaths".toList →
      ∃ p ∈ p1 ++ p2 ++ p3, FromLogs rx files logs w p := by
    intro w hwm
    obtain ⟨k, hk, rfl⟩ := List.getElem_of_mem hwm
    have hk' := hk
    rw [h3.length_eq] at hk'
    exact ⟨p3[k], List.mem_append_right _ (List.getElem_mem hk'), h3.get hk hk'⟩
  refine ⟨fun hm => get _ ?_, fun hm => get _ ?_, fun hm => get _ ?_⟩
  · exact (List.mem_erase_of_ne d2).2 ((List.mem_erase_of_ne d1).2 hm)
  · rw [← List.count_pos_iff, List.count_erase_self, List.count_erase_of_ne d3]; omega
  · rw [← List.count_pos_iff, List.count_erase_of_ne d3.symm, List.count_erase_self]; omega

end Mapleaf.Show
