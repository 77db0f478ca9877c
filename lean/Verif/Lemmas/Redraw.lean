import Verif.Spec.Redraw
import Verif.Lemmas.Py
/-
Two runs of the same program side by side, for C92.
-/

namespace Verif

variable {M G α β : Type}

/-- Run from states that are alike, the program ends alike. -/
def Sync {S : Type} (R R' : S → S → Prop) (x : Doing S α) : Prop :=
  ∀ s t, R s t → (x s).2 = (x t).2 ∧ ∀ a, (x s).2 = .ok a → R' (x s).1 (x t).1

theorem doing_bind {S : Type} (x : Doing S α) (f : α → Doing S β) (s : S) :
    (x >>= f) s = match x s with
      | (s, .ok a) => f a s
      | (s, .error e) => (s, .error e) := by
  simp only [bind]
  rcases x s with ⟨s1, e | a⟩ <;> rfl

theorem Sync.bind {S : Type} {R R' R'' : S → S → Prop} {x : Doing S α} {f : α → Doing S β}
    (hx : Sync R R' x) (hf : ∀ a, (∃ s t, R s t ∧ (x s).2 = .ok a) → Sync R' R'' (f a)) :
    Sync R R'' (x >>= f) := by
  intro s t h
  obtain ⟨h1, h2⟩ := hx s t h
  rw [doing_bind, doing_bind]
  cases hs : x s with
  | mk s1 r =>
    cases ht : x t with
    | mk t1 r' =>
      rw [hs, ht] at h1
      rw [hs, ht] at h2
      simp only at h1 h2
      subst h1
      cases r with
      | error e => exact ⟨rfl, fun a h => by cases h⟩
      | ok a => exact hf a ⟨s, t, h, by rw [hs]⟩ _ _ (h2 a rfl)

theorem Sync.next {S : Type} {R R' R'' : S → S → Prop} {x : Doing S α} {f : α → Doing S β}
    (hx : Sync R R' x) (hf : ∀ a, Sync R' R'' (f a)) : Sync R R'' (x >>= f) :=
  hx.bind (fun a _ => hf a)

theorem Sync.pure {S : Type} {R : S → S → Prop} (a : α) : Sync R R (pure a : Doing S α) :=
  fun _ _ h => ⟨rfl, fun _ _ => h⟩

/-- Same variables and viewport; outputs of the same lengths, equal if they were written; the listed parts
of the picture equal. -/
structure SideBySide (v : Vars) (vp w : Nat) (po io : Prop) (F : List Field) (s t : Canvassed M G) : Prop where
  vars : s.vars = v
  vars' : t.vars = v
  viewport : s.viewport = w
  viewport' : t.viewport = w
  posLen : s.positions.length = t.positions.length
  itemLen : s.items.length = t.items.length
  pos : po → s.positions = t.positions
  item : io → s.items = t.items
  fields : ∀ f ∈ F, s.picture vp f = t.picture vp f

variable {v : Vars} {vp w : Nat} {po io : Prop} {F : List Field}

theorem sync_computed (r : Except Err α) :
    Sync (SideBySide v vp w po io F) (SideBySide v vp w po io F) (computed r : Doing (Canvassed M G) α) :=
  fun _ _ h => ⟨rfl, fun _ _ => h⟩

theorem sync_steady {get : Vars → Source α} (h : Steady (get v)) :
    Sync (SideBySide v vp w po io F) (SideBySide v vp w po io F) (evalVar get : Doing (Canvassed M G) α) := by
  intro s t hr
  refine ⟨?_, fun _ _ => hr⟩
  simp only [evalVar, hr.vars, hr.vars', hr.viewport, hr.viewport']
  exact h ..

theorem sync_evaluated {get : Vars → Source α} (hio : io) :
    Sync (SideBySide v vp w True io F) (SideBySide v vp w True io F)
      (evalVar get : Doing (Canvassed M G) α) := by
  intro s t hr
  refine ⟨?_, fun _ _ => hr⟩
  simp only [evalVar, hr.vars, hr.vars', hr.viewport, hr.viewport', hr.pos trivial, hr.item hio]

theorem fillRows_length {out value new : PointRows} (h : fillRows out value = .ok new) :
    new.length = out.length := by
  unfold fillRows at h
  split at h
  · next hl => cases h; exact hl
  · split at h
    · cases h; simp
    · cases h

theorem fillRows_congr {out out' : PointRows} (h : out.length = out'.length) (value : PointRows) :
    fillRows out value = fillRows out' value := by
  unfold fillRows; rw [h]

theorem sync_putPositions (value : PointRows) :
    Sync (SideBySide v vp w po io F) (SideBySide v vp w True io F)
      (putPositions value : Doing (Canvassed M G) Unit) := by
  intro s t hr
  have hc := fillRows_congr hr.posLen value
  unfold putPositions
  rw [hc]
  cases hf : fillRows t.positions value with
  | error e => exact ⟨rfl, fun a h => by cases h⟩
  | ok new =>
    exact ⟨rfl, fun _ _ => ⟨hr.vars, hr.vars', hr.viewport, hr.viewport', rfl, hr.itemLen, fun _ => rfl,
      hr.item, hr.fields⟩⟩

theorem sync_putItems (value : PointRows) :
    Sync (SideBySide v vp w po io F) (SideBySide v vp w po True F)
      (putItems value : Doing (Canvassed M G) Unit) := by
  intro s t hr
  have hc := fillRows_congr hr.itemLen value
  unfold putItems
  rw [hc]
  cases hf : fillRows t.items value with
  | error e => exact ⟨rfl, fun a h => by cases h⟩
  | ok new =>
    exact ⟨rfl, fun _ _ => ⟨hr.vars, hr.vars', hr.viewport, hr.viewport', hr.posLen, rfl, hr.pos,
      fun _ => rfl, hr.fields⟩⟩

theorem picture_dset (s : Canvassed M G) (p : Picture G) :
    ({ s with pictures := dset s.pictures vp p } : Canvassed M G).picture vp = p := by
  simp [Canvassed.picture]

theorem sync_putField (f : Field) (check : Except Err Unit) (c : Content G) :
    Sync (SideBySide v vp w po io F) (SideBySide v vp w po io (f :: F))
      (putField vp f check c : Doing (Canvassed M G) Unit) := by
  intro s t hr
  unfold putField
  cases check with
  | error e => exact ⟨rfl, fun a h => by cases h⟩
  | ok u =>
    refine ⟨rfl, fun _ _ => ⟨hr.vars, hr.vars', hr.viewport, hr.viewport', hr.posLen, hr.itemLen, hr.pos,
      hr.item, ?_⟩⟩
    intro g hg
    rw [picture_dset, picture_dset]
    unfold Picture.put
    split
    · rfl
    · next hne =>
      rcases List.mem_cons.1 hg with h | h
      · exact absurd h hne
      · exact hr.fields g h

/-- The parts that a kind of visual sets each time. -/
def VKind.sets : VKind → List Field
  | .points => [.sizes, .width, .edge, .face, .shapes]
  | .markers => [.sizes, .width, .edge, .face, .shapes, .outlines]
  | .pixels => [.face, .shapes]
  | .segments => [.width, .edge, .shapes]
  | .paths => [.width, .edge, .shapes]
  | .polygons => [.width, .edge, .face, .shapes]

theorem sync_points (b : Studio M G) (m : M) (hp : Steady v.positions) (hio : io) :
    Sync (SideBySide v vp w po io []) (SideBySide v vp w True io VKind.points.sets) (drawPointsOn b m vp) := by
  unfold drawPointsOn
  refine (sync_steady hp).next fun _ => (sync_computed _).next fun _ => ?_
  refine (sync_putField _ _ _).next fun _ => (sync_putPositions _).next fun _ => ?_
  refine (sync_evaluated hio).next fun _ => (sync_putField _ _ _).next fun _ => ?_
  refine (sync_evaluated hio).next fun _ => (sync_putField _ _ _).next fun _ => ?_
  refine (sync_evaluated hio).next fun _ => (sync_putField _ _ _).next fun _ => ?_
  refine (sync_evaluated hio).next fun _ => (sync_computed _).next fun _ => ?_
  exact sync_putField _ _ _

theorem sync_markers (b : Studio M G) (mo m : M) (hp : Steady v.positions) (ha : Steady v.axis)
    (ht : Steady v.types) (hg : Steady v.angles) (hio : io) :
    Sync (SideBySide v vp w po io []) (SideBySide v vp w True io VKind.markers.sets) (drawMarkersOn b mo m vp) := by
  unfold drawMarkersOn
  refine (sync_steady hp).next fun _ => (sync_computed _).next fun _ => ?_
  refine (sync_steady ha).next fun _ => (sync_steady ht).next fun _ => (sync_steady hg).next fun _ => ?_
  refine (sync_computed _).next fun _ => (sync_putPositions _).next fun _ => ?_
  refine (sync_putField _ _ _).next fun _ => (sync_putField _ _ _).next fun _ => ?_
  refine (sync_evaluated hio).next fun _ => (sync_putField _ _ _).next fun _ => ?_
  refine (sync_evaluated hio).next fun _ => (sync_putField _ _ _).next fun _ => ?_
  refine (sync_evaluated hio).next fun _ => (sync_putField _ _ _).next fun _ => ?_
  refine (sync_evaluated hio).next fun _ => (sync_computed _).next fun _ => ?_
  exact sync_putField _ _ _

theorem sync_pixels (b : Studio M G) (m : M) (hp : Steady v.positions) (hio : io)
    (hc : ∀ e, v.colors e ≠ .ok .none) :
    Sync (SideBySide v vp w po io []) (SideBySide v vp w True io VKind.pixels.sets) (drawPixelsOn b m vp) := by
  unfold drawPixelsOn
  refine (sync_steady hp).next fun _ => (sync_computed _).next fun _ => ?_
  refine (sync_putField _ _ _).next fun _ => (sync_putPositions _).next fun _ => ?_
  refine (sync_evaluated hio).bind fun a ha => ?_
  obtain ⟨s, t, hr, ha⟩ := ha
  have hne : a ≠ .none := by
    rintro rfl
    simp only [evalVar, hr.vars] at ha
    exact hc _ ha
  rw [if_neg hne]
  exact sync_putField _ _ _

theorem sync_segments (b : Studio M G) (m : M) (hp : Steady v.positions) :
    Sync (SideBySide v vp w po io []) (SideBySide v vp w True True VKind.segments.sets) (drawSegmentsOn b m vp) := by
  unfold drawSegmentsOn
  refine (sync_steady hp).next fun _ => (sync_computed _).next fun _ => (sync_computed _).next fun _ => ?_
  refine (sync_putField _ _ _).next fun _ => (sync_putPositions _).next fun _ => ?_
  refine (sync_putItems _).next fun _ => ?_
  refine (sync_evaluated trivial).next fun _ => (sync_putField _ _ _).next fun _ => ?_
  refine (sync_evaluated trivial).next fun _ => ?_
  exact sync_putField _ _ _

theorem sync_paths (b : Studio M G) (m : M) (hp : Steady v.positions) (hi : Steady v.indices) :
    Sync (SideBySide v vp w po io []) (SideBySide v vp w True True VKind.paths.sets) (drawPiecesOn b false m vp) := by
  unfold drawPiecesOn
  refine (sync_steady hp).next fun _ => (sync_computed _).next fun _ => (sync_steady hi).next fun _ => ?_
  refine (sync_computed _).next fun _ => (sync_putPositions _).next fun _ => ?_
  refine (sync_computed _).next fun _ => (sync_putItems _).next fun _ => ?_
  refine (sync_putField _ _ _).next fun _ => ?_
  refine (sync_evaluated trivial).next fun _ => ?_
  refine (sync_computed _).next fun _ => (sync_putField _ _ _).next fun _ => ?_
  refine (sync_evaluated trivial).next fun _ => (sync_computed _).next fun _ => ?_
  exact sync_putField _ _ _

theorem sync_polygons (b : Studio M G) (m : M) (hp : Steady v.positions) (hi : Steady v.indices) :
    Sync (SideBySide v vp w po io []) (SideBySide v vp w True True VKind.polygons.sets)
      (drawPiecesOn b true m vp) := by
  unfold drawPiecesOn
  refine (sync_steady hp).next fun _ => (sync_computed _).next fun _ => (sync_steady hi).next fun _ => ?_
  refine (sync_computed _).next fun _ => (sync_putPositions _).next fun _ => ?_
  refine (sync_computed _).next fun _ => (sync_putItems _).next fun _ => ?_
  refine (sync_putField _ _ _).next fun _ => ?_
  refine (sync_evaluated trivial).next fun _ => (sync_computed _).next fun _ => ?_
  refine (sync_putField _ _ _).next fun _ => (sync_evaluated trivial).next fun _ => ?_
  refine (sync_computed _).next fun _ => (sync_putField _ _ _).next fun _ => ?_
  refine (sync_evaluated trivial).next fun _ => (sync_computed _).next fun _ => ?_
  exact sync_putField _ _ _

/-- What the three steps that change a visual keep is kept by all of them, exceptions or not. -/
def KeepsTo {S : Type} (P : S → Prop) (x : Doing S α) : Prop := ∀ s, P s → P (x s).1

theorem KeepsTo.bind {S : Type} {P : S → Prop} {x : Doing S α} {f : α → Doing S β} (hx : KeepsTo P x)
    (hf : ∀ a, KeepsTo P (f a)) : KeepsTo P (x >>= f) := by
  intro s h
  have h1 := hx s h
  rw [doing_bind]
  rcases hs : x s with ⟨s1, e | a⟩
  · rw [hs] at h1; exact h1
  · rw [hs] at h1; exact hf a s1 h1

theorem keeps_computed {P : Canvassed M G → Prop} (r : Except Err α) :
    KeepsTo P (computed r : Doing (Canvassed M G) α) := fun _ h => h

theorem keeps_evaluated {P : Canvassed M G → Prop} (get : Vars → Source α) :
    KeepsTo P (evalVar get : Doing (Canvassed M G) α) := fun _ h => h

theorem keeps_drawOn {P : Canvassed M G → Prop} (k : VKind) (vp : Nat)
    (hp : ∀ x, KeepsTo P (putPositions x)) (hi : ∀ x, KeepsTo P (putItems x))
    (hf : ∀ f ∈ k.sets, ∀ check c, KeepsTo P (putField vp f check c)) (b : Studio M G) (mo m : M) :
    KeepsTo P (drawOn b k mo m vp) := by
  cases k
  case points =>
    refine (keeps_evaluated _).bind fun _ => (keeps_computed _).bind fun _ => ?_
    refine (hf _ (by decide) _ _).bind fun _ => (hp _).bind fun _ => ?_
    refine (keeps_evaluated _).bind fun _ => (hf _ (by decide) _ _).bind fun _ => ?_
    refine (keeps_evaluated _).bind fun _ => (hf _ (by decide) _ _).bind fun _ => ?_
    refine (keeps_evaluated _).bind fun _ => (hf _ (by decide) _ _).bind fun _ => ?_
    refine (keeps_evaluated _).bind fun _ => (keeps_computed _).bind fun _ => ?_
    exact hf _ (by decide) _ _
  case markers =>
    refine (keeps_evaluated _).bind fun _ => (keeps_computed _).bind fun _ => ?_
    refine (keeps_evaluated _).bind fun _ => (keeps_evaluated _).bind fun _ => ?_
    refine (keeps_evaluated _).bind fun _ => (keeps_computed _).bind fun _ => (hp _).bind fun _ => ?_
    refine (hf _ (by decide) _ _).bind fun _ => (hf _ (by decide) _ _).bind fun _ => ?_
    refine (keeps_evaluated _).bind fun _ => (hf _ (by decide) _ _).bind fun _ => ?_
    refine (keeps_evaluated _).bind fun _ => (hf _ (by decide) _ _).bind fun _ => ?_
    refine (keeps_evaluated _).bind fun _ => (hf _ (by decide) _ _).bind fun _ => ?_
    refine (keeps_evaluated _).bind fun _ => (keeps_computed _).bind fun _ => ?_
    exact hf _ (by decide) _ _
  case pixels =>
    refine (keeps_evaluated _).bind fun _ => (keeps_computed _).bind fun _ => ?_
    refine (hf _ (by decide) _ _).bind fun _ => (hp _).bind fun _ => ?_
    refine (keeps_evaluated _).bind fun a => ?_
    by_cases h : a = .none
    · rw [if_pos h]; exact fun _ h => h
    · rw [if_neg h]; exact hf _ (by decide) _ _
  case segments =>
    refine (keeps_evaluated _).bind fun _ => (keeps_computed _).bind fun _ => ?_
    refine (keeps_computed _).bind fun _ => ?_
    refine (hf _ (by decide) _ _).bind fun _ => (hp _).bind fun _ => (hi _).bind fun _ => ?_
    refine (keeps_evaluated _).bind fun _ => (hf _ (by decide) _ _).bind fun _ => ?_
    exact (keeps_evaluated _).bind fun _ => hf _ (by decide) _ _
  case paths =>
    refine (keeps_evaluated _).bind fun _ => (keeps_computed _).bind fun _ => ?_
    refine (keeps_evaluated _).bind fun _ => (keeps_computed _).bind fun _ => (hp _).bind fun _ => ?_
    refine (keeps_computed _).bind fun _ => (hi _).bind fun _ => (hf _ (by decide) _ _).bind fun _ => ?_
    refine (keeps_evaluated _).bind fun _ => (keeps_computed _).bind fun _ => ?_
    refine (hf _ (by decide) _ _).bind fun _ => (keeps_evaluated _).bind fun _ => ?_
    exact (keeps_computed _).bind fun _ => hf _ (by decide) _ _
  case polygons =>
    refine (keeps_evaluated _).bind fun _ => (keeps_computed _).bind fun _ => ?_
    refine (keeps_evaluated _).bind fun _ => (keeps_computed _).bind fun _ => (hp _).bind fun _ => ?_
    refine (keeps_computed _).bind fun _ => (hi _).bind fun _ => (hf _ (by decide) _ _).bind fun _ => ?_
    refine (keeps_evaluated _).bind fun _ => (keeps_computed _).bind fun _ => ?_
    refine (hf _ (by decide) _ _).bind fun _ => (keeps_evaluated _).bind fun _ => ?_
    refine (keeps_computed _).bind fun _ => (hf _ (by decide) _ _).bind fun _ => ?_
    refine (keeps_evaluated _).bind fun _ => (keeps_computed _).bind fun _ => ?_
    exact hf _ (by decide) _ _

/-- The caps of a collection are those the visual had when it was made. -/
def CapRight (k : VKind) (caps : Source Nat) (vp : Nat) (c : Content G) : Prop :=
  if k = .paths then ∃ n, caps ⟨vp, [], []⟩ = .ok n ∧ c = .cap n else c = .blank

/-- Every collection holds what its kind sets, and its caps. -/
structure Tidy (k : VKind) (cs : Source Nat) (s : Canvassed M G) : Prop where
  caps : s.vars.caps = cs
  unset : ∀ vp p, dget s.pictures vp = some p → ∀ f, f ∉ k.sets → f ≠ .cap → p f = .blank
  cap : ∀ vp p, dget s.pictures vp = some p → CapRight k cs vp (p .cap)

theorem cap_not_set (k : VKind) : Field.cap ∉ k.sets := by cases k <;> decide

theorem tidy_putField {k : VKind} {caps : Source Nat} (vp : Nat) {f : Field} (hf : f ∈ k.sets)
    (check : Except Err Unit) (c : Content G) :
    KeepsTo (fun s : Canvassed M G => Tidy k caps s ∧ ∃ p, dget s.pictures vp = some p)
      (putField vp f check c) := by
  rintro s ⟨h, q, hq⟩
  unfold putField
  cases check with
  | error e => exact ⟨h, q, hq⟩
  | ok u =>
    have hpic : s.picture vp = q := by simp [Canvassed.picture, hq]
    refine ⟨⟨h.caps, ?_, ?_⟩, (s.picture vp).put f c, by simp⟩
    · intro v p hp g hg hgc
      by_cases hv : vp = v
      · subst hv
        simp only [dget_dset_self, Option.some.injEq] at hp
        subst hp
        have : g ≠ f := by rintro rfl; exact hg hf
        simp only [Picture.put, if_neg this, hpic]
        exact h.unset _ _ hq g hg hgc
      · simp only at hp
        rw [dget_dset_ne _ _ hv] at hp
        exact h.unset _ _ hp g hg hgc
    · intro v p hp
      by_cases hv : vp = v
      · subst hv
        simp only [dget_dset_self, Option.some.injEq] at hp
        subst hp
        have : Field.cap ≠ f := by rintro rfl; exact cap_not_set k hf
        simp only [Picture.put, if_neg this, hpic]
        exact h.cap _ _ hq
      · simp only at hp
        rw [dget_dset_ne _ _ hv] at hp
        exact h.cap _ _ hp

theorem tidy_putPositions {k : VKind} {caps : Source Nat} (vp : Nat) (x : PointRows) :
    KeepsTo (fun s : Canvassed M G => Tidy k caps s ∧ ∃ p, dget s.pictures vp = some p)
      (putPositions x) := by
  rintro s ⟨h, hq⟩
  unfold putPositions
  cases fillRows s.positions x with
  | error e => exact ⟨h, hq⟩
  | ok new => exact ⟨⟨h.caps, h.unset, h.cap⟩, hq⟩

theorem tidy_putItems {k : VKind} {caps : Source Nat} (vp : Nat) (x : PointRows) :
    KeepsTo (fun s : Canvassed M G => Tidy k caps s ∧ ∃ p, dget s.pictures vp = some p)
      (putItems x) := by
  rintro s ⟨h, hq⟩
  unfold putItems
  cases fillRows s.items x with
  | error e => exact ⟨h, hq⟩
  | ok new => exact ⟨⟨h.caps, h.unset, h.cap⟩, hq⟩

theorem tidy_ensure {k : VKind} {caps : Source Nat} {s : Canvassed M G} {vp : Nat} (h : Tidy k caps s)
    (hs : k = .paths → Steady caps) (hv : s.viewport = vp) :
    Tidy k caps (ensurePicture k vp s).1 ∧
      ((ensurePicture k vp s).2 = .ok () → ∃ p, dget (ensurePicture k vp s).1.pictures vp = some p) := by
  unfold ensurePicture
  cases hd : dget s.pictures vp with
  | some p => exact ⟨h, fun _ => ⟨p, hd⟩⟩
  | none =>
    have key : ∀ p0 : Picture G, (∀ f, f ≠ .cap → p0 f = .blank) → CapRight k caps vp (p0 .cap) →
        Tidy k caps { s with pictures := dset s.pictures vp p0 } := by
      intro p0 h1 h2
      refine ⟨h.caps, ?_, ?_⟩
      · intro v p hp g hg hgc
        by_cases hvv : vp = v
        · subst hvv
          simp only [dget_dset_self, Option.some.injEq] at hp
          subst hp
          exact h1 g hgc
        · simp only at hp
          rw [dget_dset_ne _ _ hvv] at hp
          exact h.unset _ _ hp g hg hgc
      · intro v p hp
        by_cases hvv : vp = v
        · subst hvv
          simp only [dget_dset_self, Option.some.injEq] at hp
          subst hp
          exact h2
        · simp only at hp
          rw [dget_dset_ne _ _ hvv] at hp
          exact h.cap _ _ hp
    by_cases hk : k = .paths
    · simp only [if_pos hk, h.caps]
      cases hc : caps ⟨s.viewport, s.positions, s.items⟩ with
      | error e => exact ⟨h, fun h => by cases h⟩
      | ok n =>
        refine ⟨key _ ?_ ?_, fun _ => ⟨_, dget_dset_self ..⟩⟩
        · intro f hf; simp [Picture.put, Picture.blank, hf]
        · unfold CapRight
          rw [if_pos hk]
          exact ⟨n, by rw [← hc, ← hv]; exact hs hk .., by simp [Picture.put]⟩
    · simp only [if_neg hk]
      refine ⟨key _ (fun _ _ => rfl) ?_, fun _ => ⟨_, dget_dset_self ..⟩⟩
      unfold CapRight
      rw [if_neg hk]
      rfl

theorem redraw_eq (b : Studio M G) (k : VKind) (c : RCall M) (s : Canvassed M G) :
    renderPiecewise b k c s =
      match ensurePicture k c.viewport (takeMatrices b c s).1 with
      | (s1, .ok _) => drawIfFits b k c.viewport s1
      | (s1, .error e) => (s1, .error e) := by
  unfold renderPiecewise
  rw [doing_bind]
  have : takeMatrices b c s = ((takeMatrices b c s).1, .ok ()) := rfl
  rw [this]
  simp only
  rw [doing_bind]
  rcases ensurePicture k c.viewport (takeMatrices b c s).1 with ⟨s1, e | u⟩ <;> rfl

theorem tidy_redraw {k : VKind} {caps : Source Nat} {s : Canvassed M G} (h : Tidy k caps s)
    (hs : k = .paths → Steady caps) (b : Studio M G) (c : RCall M) :
    Tidy k caps (renderPiecewise b k c s).1 ∧
      ((renderPiecewise b k c s).2 = .ok () → ∃ p, dget (renderPiecewise b k c s).1.pictures c.viewport = some p) := by
  rw [redraw_eq]
  have h0 : Tidy k caps (takeMatrices b c s).1 := ⟨h.caps, h.unset, h.cap⟩
  obtain ⟨h1, h2⟩ := tidy_ensure (vp := c.viewport) h0 hs rfl
  rcases he : ensurePicture k c.viewport (takeMatrices b c s).1 with ⟨s1, e | u⟩
  · rw [he] at h1; exact ⟨h1, fun h => by cases h⟩
  · rw [he] at h1 h2
    simp only [drawIfFits]
    cases hm : s1.transform with
    | none => exact ⟨h1, fun _ => h2 rfl⟩
    | some m =>
      have := keeps_drawOn k c.viewport (tidy_putPositions _) (tidy_putItems _)
        (fun f hf => tidy_putField _ hf) b s1.model m s1 ⟨h1, h2 rfl⟩
      exact ⟨this.1, fun _ => this.2⟩

theorem sync_drawOn (b : Studio M G) (k : VKind) (mo m : M) (hp : PlacedByItself k v)
    (hc : k = .pixels → ∀ e, v.colors e ≠ .ok .none) :
    Sync (SideBySide v vp w False (k.hasItems = false) []) (SideBySide v vp w True True k.sets)
      (drawOn b k mo m vp) := by
  obtain ⟨h1, h2, h3⟩ := hp
  have weak : ∀ {F : List Field} {x : Doing (Canvassed M G) Unit} {io : Prop}, io →
      Sync (SideBySide v vp w False io []) (SideBySide v vp w True io F) x →
      Sync (SideBySide v vp w False io []) (SideBySide v vp w True True F) x := by
    intro F x io hio h s t hr
    obtain ⟨g1, g2⟩ := h s t hr
    refine ⟨g1, fun a ha => ?_⟩
    have g := g2 a ha
    exact ⟨g.vars, g.vars', g.viewport, g.viewport', g.posLen, g.itemLen, g.pos, fun _ => g.item hio,
      g.fields⟩
  cases k
  case points => exact weak rfl (sync_points b m h1 rfl)
  case markers =>
    obtain ⟨ha, ht, hg⟩ := h3 rfl
    exact weak rfl (sync_markers b mo m h1 ha ht hg rfl)
  case pixels => exact weak rfl (sync_pixels b m h1 rfl (hc rfl))
  case segments => exact sync_segments b m h1
  case paths => exact sync_paths b m h1 (h2 (Or.inl rfl))
  case polygons => exact sync_polygons b m h1 (h2 (Or.inr rfl))

/-- Making the collection, from states that are alike up to their pictures. -/
theorem ensure_alike {k : VKind} {s t : Canvassed M G} {io : Prop} (h : Tidy k v.caps s)
    (hr : SideBySide v vp vp False io [] s t) (hs : k = .paths → Steady v.caps) (ht : t.pictures = []) :
    (ensurePicture k vp s).2 = (ensurePicture k vp t).2 ∧
      SideBySide v vp vp False io [] (ensurePicture k vp s).1 (ensurePicture k vp t).1 ∧
      (ensurePicture k vp s).1.model = s.model ∧ (ensurePicture k vp t).1.model = t.model ∧
      (ensurePicture k vp s).1.transform = s.transform ∧
      (ensurePicture k vp t).1.transform = t.transform := by
  have key : ∀ p q, SideBySide v vp vp False io []
      ({ s with pictures := p } : Canvassed M G) { t with pictures := q } :=
    fun p q => ⟨hr.vars, hr.vars', hr.viewport, hr.viewport', hr.posLen, hr.itemLen, hr.pos, hr.item,
      fun f hf => by cases hf⟩
  have htn : dget t.pictures vp = none := by rw [ht]; rfl
  unfold ensurePicture
  rw [htn]
  by_cases hk : k = .paths
  · simp only [if_pos hk]
    have hce : t.vars.caps ⟨t.viewport, t.positions, t.items⟩ = v.caps ⟨vp, [], []⟩ := by
      rw [hr.vars', hr.viewport']; exact hs hk ..
    have hcs : s.vars.caps ⟨s.viewport, s.positions, s.items⟩ = v.caps ⟨vp, [], []⟩ := by
      rw [hr.vars, hr.viewport]; exact hs hk ..
    rw [hce]
    cases hd : dget s.pictures vp with
    | some p =>
      have := h.cap _ _ hd
      unfold CapRight at this
      rw [if_pos hk] at this
      obtain ⟨n, hn, -⟩ := this
      rw [hn]
      exact ⟨rfl, key _ _, rfl, rfl, rfl, rfl⟩
    | none =>
      simp only [hcs]
      cases v.caps ⟨vp, [], []⟩ with
      | error e => exact ⟨rfl, hr, rfl, rfl, rfl, rfl⟩
      | ok n => exact ⟨rfl, key _ _, rfl, rfl, rfl, rfl⟩
  · simp only [if_neg hk]
    cases hd : dget s.pictures vp with
    | some p => exact ⟨rfl, key _ _, by trivial, by trivial, by trivial, by trivial⟩
    | none => exact ⟨rfl, key _ _, by trivial, by trivial, by trivial, by trivial⟩

/-- Pictures that agree in what is set agree. -/
theorem tidy_agree {k : VKind} {caps : Source Nat} {s t : Canvassed M G} (hs : Tidy k caps s)
    (ht : Tidy k caps t) {vp : Nat} (hsp : ∃ p, dget s.pictures vp = some p)
    (htp : ∃ p, dget t.pictures vp = some p) (h : ∀ f ∈ k.sets, s.picture vp f = t.picture vp f) :
    s.picture vp = t.picture vp := by
  obtain ⟨p, hp⟩ := hsp
  obtain ⟨q, hq⟩ := htp
  funext f
  by_cases hf : f ∈ k.sets
  · exact h f hf
  · have e1 : s.picture vp = p := by simp [Canvassed.picture, hp]
    have e2 : t.picture vp = q := by simp [Canvassed.picture, hq]
    rw [e1, e2]
    by_cases hc : f = .cap
    · subst hc
      have g1 := hs.cap _ _ hp
      have g2 := ht.cap _ _ hq
      unfold CapRight at g1 g2
      by_cases hk : k = .paths
      · rw [if_pos hk] at g1 g2
        obtain ⟨n, hn, e⟩ := g1
        obtain ⟨n', hn', e'⟩ := g2
        rw [hn] at hn'
        cases hn'
        rw [e, e']
      · rw [if_neg hk] at g1 g2
        rw [g1, g2]
    · rw [hs.unset _ _ hp f hf hc, ht.unset _ _ hq f hf hc]

theorem tidy_happened {k : VKind} (b : Studio M G) : ∀ (hs : List (Happening M)) (s : Canvassed M G)
    {caps : Source Nat}, Tidy k caps s → (k = .paths → Steady caps ∧ CapsLeft hs) →
    ∃ caps', Tidy k caps' (happened b k s hs) ∧ (k = .paths → caps' = caps)
  | [], s, caps, h, _ => ⟨caps, h, fun _ => rfl⟩
  | .render c :: hs, s, caps, h, hk => by
    have h1 := (tidy_redraw h (fun e => (hk e).1) b c).1
    exact tidy_happened b hs _ h1 (fun e => ⟨(hk e).1, fun x hx => (hk e).2 x (List.mem_cons_of_mem _ hx)⟩)
  | .assign a :: hs, s, caps, h, hk => by
    by_cases e : k = .paths
    · have hc : (a.apply s.vars).caps = caps := by
        rw [← h.caps]
        cases a with
        | caps x => exact absurd rfl ((hk e).2 _ List.mem_cons_self x)
        | _ => rfl
      have h1 : Tidy k caps { s with vars := a.apply s.vars } := ⟨hc, h.unset, h.cap⟩
      exact tidy_happened b hs _ h1
        (fun e => ⟨(hk e).1, fun x hx => (hk e).2 x (List.mem_cons_of_mem _ hx)⟩)
    · have h1 : Tidy k (a.apply s.vars).caps { s with vars := a.apply s.vars } := by
        refine ⟨rfl, h.unset, fun vp p hp => ?_⟩
        have := h.cap vp p hp
        unfold CapRight at this ⊢
        rw [if_neg e] at this ⊢
        exact this
      obtain ⟨c', h2, -⟩ := tidy_happened b hs _ h1 (fun e' => absurd e' e)
      exact ⟨c', h2, fun e' => absurd e' e⟩

end Verif
