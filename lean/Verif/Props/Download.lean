import Verif.Lemmas.Download
/-
C50: a downloaded asset is complete.
-/

namespace Verif

variable (decode : Bytes → List Char)

/-- A call that is not interrupted, and does not find a file, brings the asset. -/
theorem download_fresh (remote : Remote) (cache : Option Bytes) (force : Bool)
    (h : cache = none ∨ force = true) :
    downloadData decode remote cache force none =
      (some (remote.asset decode), .ok (remote.asset decode)) := by
  have e : downloadData decode remote cache force none = fetchData decode remote cache none := by
    rcases h with rfl | rfl
    · cases force <;> rfl
    · cases cache <;> rfl
  rw [e]
  simp only [fetchData, asset_eq]
  split <;> rfl

/-- A call that downloads either raises or brings the whole asset: no interruption, at any
point, is passed over in silence. -/
theorem download_reports (remote : Remote) (cache : Option Bytes) (force : Bool)
    (fault : Option Fault) (h : cache = none ∨ force = true) (b : Bytes)
    (hb : (downloadData decode remote cache force fault).2 = .ok b) :
    b = remote.asset decode ∧
      (downloadData decode remote cache force fault).1 = some (remote.asset decode) := by
  have e : downloadData decode remote cache force fault = fetchData decode remote cache fault := by
    rcases h with rfl | rfl
    · cases force <;> rfl
    · cases cache <;> rfl
  rw [e] at hb ⊢
  rcases fault with _ | ⟨_ | _ | n | n⟩ <;> simp only [asset_eq, fetchData] at hb ⊢ <;>
    (try split at hb) <;> (try split at hb)
  all_goals first
    | cases hb; done
    | (cases hb; simp_all; done)
    | (cases hb; simp_all; rw [if_neg (by omega)])

/-- One step: a complete file stays complete. -/
theorem download_step (remote : Remote) (cache : Option Bytes) (force : Bool)
    (fault : Option Fault)
    (hf : ∀ f ∈ fault, f.early ∨ (isLfsPointer decode remote.raw = false ∧ f.network))
    (hc : ∀ c ∈ cache, c = remote.asset decode) :
    (∀ c ∈ (downloadData decode remote cache force fault).1, c = remote.asset decode) ∧
    (∀ b, (downloadData decode remote cache force fault).2 = .ok b → b = remote.asset decode) := by
  have main : ∀ cache : Option Bytes, (∀ c ∈ cache, c = remote.asset decode) →
      (∀ c ∈ (fetchData decode remote cache fault).1, c = remote.asset decode) ∧
      (∀ b, (fetchData decode remote cache fault).2 = .ok b →
        b = remote.asset decode) := by
    intro cache hc
    rcases fault with _ | ⟨_ | _ | n | n⟩
    · simp only [asset_eq, fetchData]; split <;> simp
    · exact ⟨hc, by simp [fetchData]⟩
    · simp only [asset_eq, fetchData] at hc ⊢
      split
      · rename_i h; rw [if_pos h] at hc; exact ⟨hc, by simp⟩
      · simp
    · rcases hf _ rfl with h | ⟨h, _⟩
      · exact absurd h (by simp [Fault.early])
      · simp [asset_eq, fetchData, h]
    · rcases hf _ rfl with h | ⟨_, h⟩
      · exact absurd h (by simp [Fault.early])
      · exact absurd h (by simp [Fault.network])
  match cache, force, hc with
  | some f, false, hc =>
    have := hc f rfl
    subst this
    refine ⟨hc, ?_⟩
    intro b hb
    simp only [downloadData, Except.ok.injEq] at hb
    exact hb.symm
  | none, false, hc => exact main none hc
  | none, true, hc => exact main none hc
  | some f, true, hc => exact main (some f) hc

/-- Part of C50: every file returned, in any history of calls, is the complete asset, if no call was
interrupted while it was writing (as to normal files, the network cannot do so: they are received
before they are written). What is missing: downloads interrupted in the middle of a file of Git
LFS, see `download_fails`. -/
theorem download_complete_partial (remote : Remote) (calls : List (Bool × Option Fault)) :
    ∀ cache : Option Bytes, (∀ c ∈ cache, c = remote.asset decode) →
    (∀ c ∈ calls, ∀ f ∈ c.2,
      f.early ∨ (isLfsPointer decode remote.raw = false ∧ f.network)) →
    ∀ r ∈ (downloadRun decode remote cache calls).2, ∀ b, r = .ok b →
      b = remote.asset decode := by
  induction calls with
  | nil => intro _ _ _ r hr; simp [downloadRun] at hr
  | cons c calls ih =>
    intro cache hc hf r hr b hb
    obtain ⟨force, fault⟩ := c
    have hs := download_step decode remote cache force fault
      (fun f hf' => hf (force, fault) (by simp) f hf') hc
    simp only [downloadRun, List.mem_cons] at hr
    rcases hr with rfl | hr
    · exact hs.2 b hb
    · exact ih _ hs.1 (fun c' hc' => hf c' (by simp [hc'])) r hr b hb

/-- A last call that is forced and not interrupted repairs the cache, whatever happened before. -/
theorem download_force_repairs (remote : Remote) (calls : List (Bool × Option Fault)) :
    ∀ cache : Option Bytes,
    (downloadRun decode remote cache (calls ++ [(true, none)])).1 = some (remote.asset decode) := by
  induction calls with
  | nil => intro cache; simp [downloadRun, download_fresh]
  | cons c calls ih => intro cache; obtain ⟨force, fault⟩ := c; exact ih _

/-- A connection lost in the middle of a file of Git LFS leaves a part of it, which the next call
returns as the asset; the call that is interrupted raises. -/
theorem download_fails (remote : Remote) (n : Nat)
    (hp : isLfsPointer decode remote.raw = true) (hn : n * chunkSize < remote.media.length) :
    (downloadRun decode remote none [(false, some (.chunk n)), (false, none)]).2 =
        [.error (.other 0), .ok (remote.media.take (n * chunkSize))] ∧
      remote.media.take (n * chunkSize) ≠ remote.asset decode := by
  constructor
  · simp [downloadRun, downloadData, fetchData, hp, hn]
  · simp only [asset_eq, hp, if_true]
    intro h
    have := congrArg List.length h
    simp at this
    omega

/-- Also a forced download that fails loses the complete file that was there. -/
theorem download_force_loses (remote : Remote) (n : Nat) (f : Bytes)
    (hp : isLfsPointer decode remote.raw = true) (hn : n * chunkSize < remote.media.length) :
    (downloadData decode remote (some f) true (some (.chunk n))).1 =
      some (remote.media.take (n * chunkSize)) := by
  simp [downloadData, fetchData, hp, hn]

/-- Text of ASCII characters. -/
def asciiText (b : Bytes) : List Char := b.map Char.ofNat

/-- A pointer file, and a file of more than one chunk. -/
example : isLfsPointer asciiText
    (("version https://git-lfs.github.com/spec/v1\noid sha256:0".toList).map Char.toNat) = true ∧
    1 * chunkSize < (List.replicate 10000 7).length := by
  exact ⟨by decide +kernel, by rw [List.length_replicate]; decide⟩

example : (downloadRun asciiText ⟨[1, 2, 3], []⟩ none
    [(false, some .raw), (false, none), (true, some .media), (false, none)]).2 =
      [.error (.other 0), .ok [1, 2, 3], .ok [1, 2, 3], .ok [1, 2, 3]] := by decide +kernel

end Verif
