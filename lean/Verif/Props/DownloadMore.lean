import Verif.Props.Download
/-
C50: what is in the cache after every history of calls, interrupted or not.
-/

namespace Verif

variable {decode : Bytes → List Char}

theorem download_prefix_step (remote : Remote) (cache : Option Bytes) (force : Bool) (fault : Option Fault)
    (hc : ∀ c ∈ cache, c <+: remote.asset decode) :
    (∀ c ∈ (downloadData decode remote cache force fault).1, c <+: remote.asset decode) ∧
    (∀ b, (downloadData decode remote cache force fault).2 = .ok b → b <+: remote.asset decode) := by
  have hf : ∀ cache : Option Bytes, (∀ c ∈ cache, c <+: remote.asset decode) →
      (∀ c ∈ (fetchData decode remote cache fault).1, c <+: remote.asset decode) ∧
      (∀ b, (fetchData decode remote cache fault).2 = .ok b → b <+: remote.asset decode) := by
    intro cache hc
    rw [asset_eq] at hc ⊢
    unfold fetchData
    cases fault with
    | none => by_cases hp : isLfsPointer decode remote.raw = true <;> simp [hp]
    | some f =>
      cases f with
      | raw => exact ⟨hc, by simp⟩
      | media =>
        by_cases hp : isLfsPointer decode remote.raw = true
        · simp only [hp, if_true] at hc ⊢
          exact ⟨hc, by simp⟩
        · simp [hp]
      | chunk n =>
        by_cases hp : isLfsPointer decode remote.raw = true
        · simp only [hp, if_true]
          split
          · simp [List.take_prefix]
          · simp
        · simp [hp]
      | write n =>
        by_cases hp : isLfsPointer decode remote.raw = true
        · simp [hp]
        · simp only [hp, Bool.false_eq_true, if_false]
          split
          · simp [List.take_prefix]
          · simp
  unfold downloadData
  cases cache with
  | none => exact hf none hc
  | some f =>
    cases force with
    | true => exact hf (some f) hc
    | false => exact ⟨hc, by rintro b ⟨⟩; exact hc f rfl⟩

/-- **C50.** Whatever interruptions there were, the files returned and the file in the cache are beginnings
of the asset: nothing else is ever mixed in. -/
theorem download_prefix (remote : Remote) (calls : List (Bool × Option Fault)) :
    ∀ cache : Option Bytes, (∀ c ∈ cache, c <+: remote.asset decode) →
    (∀ c ∈ (downloadRun decode remote cache calls).1, c <+: remote.asset decode) ∧
    (∀ r ∈ (downloadRun decode remote cache calls).2, ∀ b, r = .ok b → b <+: remote.asset decode) := by
  induction calls with
  | nil => intro cache hc; exact ⟨hc, by simp [downloadRun]⟩
  | cons c calls ih =>
    intro cache hc
    have h1 := download_prefix_step remote cache c.1 c.2 hc
    have h2 := ih _ h1.1
    refine ⟨h2.1, ?_⟩
    intro r hr b hb
    rcases List.mem_cons.1 hr with rfl | hr
    · exact h1.2 b hb
    · exact h2.2 r hr b hb

/-- **C50.** A file in the cache, complete or not, is what all calls return that do not force a download. -/
theorem download_stays (remote : Remote) (f : Bytes) (calls : List (Bool × Option Fault))
    (h : ∀ c ∈ calls, c.1 = false) :
    downloadRun decode remote (some f) calls = (some f, calls.map (fun _ => .ok f)) := by
  induction calls with
  | nil => rfl
  | cons c calls ih =>
    have h0 : c.1 = false := h c (List.mem_cons_self ..)
    have h1 := ih (fun d hd => h d (List.mem_cons_of_mem _ hd))
    obtain ⟨force, fault⟩ := c
    subst h0
    simp only [downloadRun, downloadData, h1, List.map_cons]

/-- **C50.** Exactly when a call that downloads leaves an incomplete file: when it is interrupted while it is
writing, before the end. -/
theorem download_incomplete_iff (remote : Remote) (fault : Option Fault) :
    (∃ c, (downloadData decode remote none false fault).1 = some c ∧ c ≠ remote.asset decode) ↔
      (∃ n, fault = some (.chunk n) ∧ isLfsPointer decode remote.raw = true ∧
        n * chunkSize < remote.media.length) ∨
      (∃ n, fault = some (.write n) ∧ isLfsPointer decode remote.raw = false ∧ n < remote.raw.length) := by
  have htake : ∀ (l : Bytes) (n : Nat), n < l.length → l.take n ≠ l := by
    intro l n hn he
    have := congrArg List.length he
    rw [List.length_take] at this
    omega
  rw [asset_eq]
  unfold downloadData fetchData
  cases fault with
  | none => by_cases hp : isLfsPointer decode remote.raw = true <;> simp [hp]
  | some f =>
    cases f with
    | raw => simp
    | media => by_cases hp : isLfsPointer decode remote.raw = true <;> simp [hp]
    | chunk n =>
      by_cases hp : isLfsPointer decode remote.raw = true
      · by_cases hn : n * chunkSize < remote.media.length
        · simp only [hp, hn, if_true]
          refine ⟨fun _ => .inl ⟨n, rfl, trivial, hn⟩, fun _ => ⟨_, rfl, htake _ _ hn⟩⟩
        · simp only [hp, hn, if_true, if_false]
          refine ⟨by rintro ⟨c, hc, hne⟩; cases hc; exact absurd rfl hne, ?_⟩
          rintro (⟨m, hm, _, hl⟩ | ⟨m, hm, _⟩)
          · cases hm; exact absurd hl hn
          · cases hm
      · simp [hp]
    | write n =>
      by_cases hp : isLfsPointer decode remote.raw = true
      · simp [hp]
      · by_cases hn : n < remote.raw.length
        · simp only [hp, hn, Bool.false_eq_true, if_true, if_false]
          refine ⟨fun _ => .inr ⟨n, rfl, by simp, hn⟩, fun _ => ⟨_, rfl, htake _ _ hn⟩⟩
        · simp only [hp, hn, Bool.false_eq_true, if_false]
          refine ⟨by rintro ⟨c, hc, hne⟩; cases hc; exact absurd rfl hne, ?_⟩
          rintro (⟨m, hm, _⟩ | ⟨m, hm, _, hl⟩)
          · cases hm
          · cases hm; exact absurd hl hn

example : downloadRun (fun _ => []) ⟨[1, 2, 3], []⟩ none
    [(false, some (.write 2)), (false, none), (false, none)] =
      (some [1, 2], [.error (.other 0), .ok [1, 2], .ok [1, 2]]) := by decide

end Verif
