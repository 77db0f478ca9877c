import Verif.Model.Threads
import Verif.Spec.Threads
import Verif.Lemmas.Py
import Mathlib.Order.Basic
import Mathlib.Data.Nat.Basic
import Mathlib.Data.List.Nodup
/-
Invariants of threads.
-/

namespace Verif

variable {s : TWorld} {t : Nat}

@[simp] theorem put_threads (s : TWorld) (t : Nat) (th : TThread) (u : Nat) :
    (s.put t th).threads u = if u = t then th else s.threads u := rfl
@[simp] theorem put_oids (s : TWorld) (t : Nat) (th : TThread) : (s.put t th).oids = s.oids := rfl
@[simp] theorem put_objects (s : TWorld) (t : Nat) (th : TThread) : (s.put t th).objects = s.objects := rfl
@[simp] theorem put_cids (s : TWorld) (t : Nat) (th : TThread) : (s.put t th).cids = s.cids := rfl
@[simp] theorem put_active (s : TWorld) (t : Nat) (th : TThread) : (s.put t th).active = s.active := rfl
@[simp] theorem put_queues (s : TWorld) (t : Nat) (th : TThread) : (s.put t th).queues = s.queues := rfl
@[simp] theorem onQueue_threads (s : TWorld) (q : Nat) (f : TQueue → TQueue) :
    (s.onQueue q f).threads = s.threads := rfl
@[simp] theorem onQueue_oids (s : TWorld) (q : Nat) (f : TQueue → TQueue) :
    (s.onQueue q f).oids = s.oids := rfl
@[simp] theorem onQueue_objects (s : TWorld) (q : Nat) (f : TQueue → TQueue) :
    (s.onQueue q f).objects = s.objects := rfl
@[simp] theorem onQueue_cids (s : TWorld) (q : Nat) (f : TQueue → TQueue) :
    (s.onQueue q f).cids = s.cids := rfl
@[simp] theorem onQueue_active (s : TWorld) (q : Nat) (f : TQueue → TQueue) :
    (s.onQueue q f).active = s.active := rfl

/-- The object a call that is under way is about, once it is known. -/
def Pc.oid : Pc → Option Nat
  | .active o | .fresh o | .assign o _ | .getActive o | .check o _ | .number o _ | .push o _ _
  | .append o _ _ => some o
  | _ => none

/-- The program points of `run`. -/
def Pc.running : Pc → Bool
  | .runSave _ | .runSet _ _ | .runLoop | .runEnd => true
  | _ => false

theorem mem_modify_all {qs : List TQueue} {q : Nat} {x c : TCmd}
    (h : c ∈ (qs.modify q (fun u => { u with commands := u.commands ++ [x] })).flatMap (·.commands)) :
    c ∈ qs.flatMap (·.commands) ∨ c = x := by
  induction qs generalizing q with
  | nil => simp at h
  | cons u us ih =>
    cases q with
    | zero =>
      simp only [List.modify_zero_cons, List.flatMap_cons, List.mem_append, List.mem_singleton] at h ⊢
      rcases h with (h | h) | h
      · exact .inl (.inl h)
      · exact .inr h
      · exact .inl (.inr h)
    | succ q =>
      simp only [List.modify_succ_cons, List.flatMap_cons, List.mem_append] at h ⊢
      rcases h with h | h
      · exact .inl (.inl h)
      · rcases ih h with h | h
        · exact .inl (.inr h)
        · exact .inr h

theorem modify_flag_all {qs : List TQueue} {q : Nat} {b : Bool} :
    (qs.modify q (fun u => { u with readonly := b })).flatMap (·.commands) = qs.flatMap (·.commands) := by
  induction qs generalizing q with
  | nil => simp
  | cons u us ih =>
    cases q with
    | zero => simp
    | succ q => simp [ih]

/-- What is true of one thread, as to the objects. -/
structure ThreadIds (s : TWorld) (t : Nat) (th : TThread) : Prop where
  reg : ∀ o, th.pc = .register o → o ≤ s.oids ∧ dget s.objects o = none ∧
    ∃ ok, th.script[th.next]? = some (.create ok)
  made : ∀ k ok, k < th.next → th.script[k]? = some (.create ok) → ∃ o, dget s.objects o = some (t, k)
  cur : ∀ o ok, th.pc.oid = some o → th.script[th.next]? = some (.create ok) →
    dget s.objects o = some (t, th.next)
  run : (th.frame ≠ none ∨ th.pc.running = true) → ∃ q, th.script[th.next]? = some (.run q)
  loop : th.pc = .runLoop ∨ th.pc = .runEnd → th.frame ≠ none

/-- The invariant of objects and identifiers. -/
structure IdsInv (s : TWorld) : Prop where
  thr : ∀ t, ThreadIds s t (s.threads t)
  apart : ∀ t u o, (s.threads t).pc = .register o → (s.threads u).pc = .register o → t = u
  keys : ∀ o v, dget s.objects o = some v → o ≤ s.oids
  cmd : ∀ c ∈ s.all, c.inner = false → ∀ ok,
    (s.threads c.thread).script[c.call]? = some (.create ok) →
    dget s.objects c.oid = some (c.thread, c.call)

theorem script_step (s : TWorld) (t u : Nat) :
    ((tstep s t).threads u).script = (s.threads u).script := by
  unfold tstep TThread.done
  dsimp only
  by_cases h : u = t
  · subst h
    repeat' split
    all_goals simp_all
  · repeat' split
    all_goals simp [h]

theorem ThreadIds.mono {s' : TWorld} {u : Nat} {th : TThread} (h : ThreadIds s u th) (ho : s.oids ≤ s'.oids)
    (hk : ∀ o v, dget s.objects o = some v → dget s'.objects o = some v)
    (hr : ∀ o, th.pc = .register o → dget s'.objects o = none) : ThreadIds s' u th where
  reg o hp := ⟨(h.reg o hp).1.trans ho, hr o hp, (h.reg o hp).2.2⟩
  made k ok hl hs := (h.made k ok hl hs).imp fun o => hk o _
  cur o ok hp hs := hk _ _ (h.cur o ok hp hs)
  run := h.run
  loop := h.loop

theorem IdsInv.put {s' : TWorld} {th : TThread} (h : IdsInv s) (ht : s'.threads = s.threads)
    (ho : s.oids ≤ s'.oids) (hk : ∀ o v, dget s.objects o = some v → dget s'.objects o = some v)
    (hr : ∀ u, u ≠ t → ∀ o, (s.threads u).pc = .register o → dget s'.objects o = none)
    (hth : ThreadIds s' t th) (hs : th.script = (s.threads t).script)
    (hap : ∀ o, th.pc = .register o → ∀ u, u ≠ t → (s.threads u).pc ≠ .register o)
    (hkeys : ∀ o v, dget s'.objects o = some v → o ≤ s'.oids)
    (hcmd : ∀ c ∈ s'.all, c ∈ s.all ∨
      (c.thread = t ∧ c.call = (s.threads t).next ∧ (s.threads t).pc.oid = some c.oid)) :
    IdsInv (s'.put t th) where
  thr u := by
    simp only [put_threads, ht]
    split
    · rename_i e; subst e
      exact hth.mono (le_refl _) (fun _ _ => id) (fun o hp => (hth.reg o hp).2.1)
    · rename_i e
      exact (h.thr u).mono ho hk (hr u e)
  apart u v o h1 h2 := by
    simp only [put_threads, ht] at h1 h2
    split at h1 <;> split at h2
    · rename_i a b; rw [a, b]
    · rename_i a b; exact absurd h2 (hap o h1 v b)
    · rename_i a b; exact absurd h1 (hap o h2 u a)
    · exact h.apart u v o h1 h2
  keys := hkeys
  cmd c hc hi ok hok := by
    have e : ((s'.put t th).threads c.thread).script = (s.threads c.thread).script := by
      simp only [put_threads, ht]
      split
      · rename_i e; rw [hs, e]
      · rfl
    rw [e] at hok
    rcases hcmd c hc with hm | ⟨h1, h2, h3⟩
    · exact hk _ _ (h.cmd c hm hi ok hok)
    · rw [h1, h2] at hok ⊢
      exact hk _ _ ((h.thr t).cur c.oid ok h3 hok)

/-- The case of a step that concerns neither objects nor commands. -/
theorem IdsInv.same {s' : TWorld} {th : TThread} (h : IdsInv s) (ht : s'.threads = s.threads)
    (ho : s.oids = s'.oids) (hb : s'.objects = s.objects)
    (hth : ThreadIds s t th) (hs : th.script = (s.threads t).script)
    (hap : ∀ o, th.pc ≠ .register o)
    (hcmd : ∀ c ∈ s'.all, c ∈ s.all ∨
      (c.thread = t ∧ c.call = (s.threads t).next ∧ (s.threads t).pc.oid = some c.oid)) :
    IdsInv (s'.put t th) :=
  h.put ht (le_of_eq ho) (by rw [hb]; exact fun _ _ => id)
    (fun u _ o hp => by rw [hb]; exact ((h.thr u).reg o hp).2.1)
    (hth.mono (le_of_eq ho) (by rw [hb]; exact fun _ _ => id) (fun o hp => absurd hp (hap o))) hs
    (fun o hp => absurd hp (hap o)) (by rw [hb, ← ho]; exact h.keys) hcmd

theorem ThreadIds.done {th : TThread} (h : ThreadIds s t th)
    (hm : ∀ ok, th.script[th.next]? = some (.create ok) → ∃ o, dget s.objects o = some (t, th.next)) :
    ThreadIds s t th.done := by
  unfold TThread.done
  split
  · rename_i hf
    refine ⟨by simp, ?_, by simp [Pc.oid], by simp [hf, Pc.running], by simp⟩
    intro k ok hk hs
    rcases Nat.lt_succ_iff_lt_or_eq.mp hk with hk | rfl
    · exact h.made k ok hk hs
    · exact hm ok hs
  · rename_i f hf
    refine ⟨by simp, h.made, by simp [Pc.oid], ?_, by simp⟩
    intro _
    exact h.run (.inl (by simp [hf]))

theorem done_register (th : TThread) (o : Nat) : th.done.pc ≠ .register o := by
  unfold TThread.done; split <;> simp

theorem done_script (th : TThread) : th.done.script = th.script := by
  unfold TThread.done; split <;> rfl

theorem ThreadIds.cont {th th' : TThread} {o : Nat} (h : ThreadIds s t th) (hs : th'.script = th.script)
    (hn : th'.next = th.next) (hf : th'.frame = th.frame) (hp : th'.pc.oid = some o)
    (hr : th'.pc.running = false) (hc : ∀ ok, th.script[th.next]? = some (.create ok) →
      dget s.objects o = some (t, th.next)) : ThreadIds s t th' := by
  refine ⟨?_, ?_, ?_, ?_, ?_⟩
  · intro o' e; rw [e] at hp; simp [Pc.oid] at hp
  · rw [hs, hn]; exact h.made
  · intro o' ok e hk
    rw [hp] at e; cases e
    rw [hs, hn] at hk; rw [hn]
    exact hc ok hk
  · rw [hf, hr, hs, hn]; simpa using fun hne => h.run (.inl hne)
  · rintro (e | e) <;> rw [e] at hr <;> simp [Pc.running] at hr

theorem ids_step (h : IdsInv s) : IdsInv (tstep s t) := by
  have ht := h.thr t
  have hall : ∀ c ∈ s.all, c ∈ s.all ∨ (c.thread = t ∧ c.call = (s.threads t).next ∧
      (s.threads t).pc.oid = some c.oid) := fun c hc => .inl hc
  unfold tstep
  dsimp only
  generalize hth : s.threads t = th at ht hall ⊢
  split
  · rename_i hpc
    split
    · exact h
    · rename_i ok hs
      refine h.put rfl (Nat.le_succ _) (fun _ _ => id) (fun u _ o hp => ((h.thr u).reg o hp).2.1)
        ⟨?_, ht.made, by simp [Pc.oid], ?_, by simp⟩ (by rw [hth]) ?_ (fun o v hv => (h.keys o v hv).trans (Nat.le_succ _))
        (by rw [hth]; exact hall)
      · intro o e
        cases e
        refine ⟨le_refl _, ?_, ok, hs⟩
        cases hd : dget s.objects (s.oids + 1) with
        | none => rfl
        | some v => exact absurd (h.keys _ _ hd) (by omega)
      · rintro (e | e)
        · exact ht.run (.inl e)
        · simp [Pc.running] at e
      · intro o e u _ hu
        cases e
        have := ((h.thr u).reg _ hu).1
        omega
    · rename_i oid ok hs
      split
      · exact h.same rfl rfl rfl (ht.cont rfl rfl rfl rfl rfl (fun ok' e => by rw [hs] at e; cases e))
          (by rw [hth]) (by simp) (by rw [hth]; exact hall)
      · exact h.same rfl rfl rfl (ht.done
          (fun ok' e => by rw [hs] at e; cases e)) (by rw [hth, done_script]) (done_register _)
          (by rw [hth]; exact hall)
    · rename_i q hs
      exact h.same rfl rfl rfl ⟨by simp, ht.made, by simp [Pc.oid], fun _ => ⟨q, hs⟩, by simp⟩
        (by rw [hth]) (by simp) (by rw [hth]; exact hall)
  · rename_i oid hpc
    obtain ⟨hle, hnone, ok, hok⟩ := ht.reg oid hpc
    have hk : ∀ o v, dget s.objects o = some v → dget (dset s.objects oid (t, th.next)) o = some v := by
      intro o v hv
      rw [dget_dset_ne]
      · exact hv
      · rintro rfl; rw [hnone] at hv; cases hv
    have hkeys : ∀ o v, dget (dset s.objects oid (t, th.next)) o = some v → o ≤ s.oids := by
      intro o v hv
      by_cases e : o = oid
      · rw [e]; exact hle
      · rw [dget_dset_ne] at hv
        · exact h.keys o v hv
        · exact fun e' => e e'.symm
    have hr : ∀ u, u ≠ t → ∀ o, (s.threads u).pc = .register o →
        dget (dset s.objects oid (t, th.next)) o = none := by
      intro u hu o hp
      rw [dget_dset_ne]
      · exact ((h.thr u).reg o hp).2.1
      · rintro rfl
        exact hu (h.apart u t _ hp (by rw [hth]; exact hpc))
    have hself : dget (dset s.objects oid (t, th.next)) oid = some (t, th.next) := dget_dset_self ..
    split
    · refine h.put rfl (Nat.le_refl _) hk hr ⟨by simp, fun k ok' hl hs => (ht.made k ok' hl hs).imp fun o => hk o _,
        ?_, ?_, by simp⟩ (by rw [hth]) (by simp) hkeys (by rw [hth]; exact hall)
      · rintro o ok' e -
        cases e
        exact hself
      · rintro (e | e)
        · exact ht.run (.inl e)
        · simp [Pc.running] at e
    · refine h.put rfl (Nat.le_refl _) hk hr ?_ (by rw [hth, done_script])
        (fun o e => absurd e (done_register _ _)) hkeys (by rw [hth]; exact hall)
      unfold TThread.done
      split
      · rename_i hf
        refine ⟨by simp, ?_, by simp [Pc.oid], by simp [hf, Pc.running], by simp⟩
        intro k ok' hk' hs
        rcases Nat.lt_succ_iff_lt_or_eq.mp hk' with hk' | rfl
        · exact (ht.made k ok' hk' hs).imp fun o => hk o _
        · exact ⟨oid, hself⟩
      · rename_i f hf
        obtain ⟨q, hq⟩ := ht.run (.inl (by simp [hf]))
        rw [hq] at hok; cases hok
  · rename_i oid hpc
    have hc : ∀ ok, th.script[th.next]? = some (.create ok) → dget s.objects oid = some (t, th.next) :=
      fun ok e => ht.cur oid ok (by rw [hpc]; rfl) e
    split
    all_goals exact h.same rfl rfl rfl (ht.cont rfl rfl rfl rfl rfl hc) (by rw [hth]) (by simp) (by rw [hth]; exact hall)
  · rename_i oid hpc
    have hc : ∀ ok, th.script[th.next]? = some (.create ok) → dget s.objects oid = some (t, th.next) :=
      fun ok e => ht.cur oid ok (by rw [hpc]; rfl) e
    refine h.same rfl rfl rfl (ht.cont rfl rfl rfl rfl rfl hc) (by rw [hth]) (by simp) ?_
    rw [hth]
    intro c hcm
    exact hall c (by simpa [TWorld.all] using hcm)
  · rename_i oid q hpc
    have hc : ∀ ok, th.script[th.next]? = some (.create ok) → dget s.objects oid = some (t, th.next) :=
      fun ok e => ht.cur oid ok (by rw [hpc]; rfl) e
    exact h.same rfl rfl rfl (ht.cont rfl rfl rfl rfl rfl hc) (by rw [hth]) (by simp) (by rw [hth]; exact hall)
  · rename_i oid hpc
    have hc : ∀ ok, th.script[th.next]? = some (.create ok) → dget s.objects oid = some (t, th.next) :=
      fun ok e => ht.cur oid ok (by rw [hpc]; rfl) e
    split
    · exact h.same rfl rfl rfl (ht.done fun ok e => ⟨_, hc ok e⟩) (by rw [hth, done_script]) (done_register _)
        (by rw [hth]; exact hall)
    · exact h.same rfl rfl rfl (ht.cont rfl rfl rfl rfl rfl hc) (by rw [hth]) (by simp) (by rw [hth]; exact hall)
  · rename_i oid q hpc
    have hc : ∀ ok, th.script[th.next]? = some (.create ok) → dget s.objects oid = some (t, th.next) :=
      fun ok e => ht.cur oid ok (by rw [hpc]; rfl) e
    split
    · exact h.same rfl rfl rfl (ht.done fun ok e => ⟨_, hc ok e⟩) (by rw [hth, done_script]) (done_register _)
        (by rw [hth]; exact hall)
    · exact h.same rfl rfl rfl (ht.cont rfl rfl rfl rfl rfl hc) (by rw [hth]) (by simp) (by rw [hth]; exact hall)
  · rename_i oid q hpc
    have hc : ∀ ok, th.script[th.next]? = some (.create ok) → dget s.objects oid = some (t, th.next) :=
      fun ok e => ht.cur oid ok (by rw [hpc]; rfl) e
    exact h.same rfl rfl rfl (ht.cont rfl rfl rfl rfl rfl hc) (by rw [hth]) (by simp) (by rw [hth]; exact hall)
  · rename_i oid q cid hpc
    have hc : ∀ ok, th.script[th.next]? = some (.create ok) → dget s.objects oid = some (t, th.next) :=
      fun ok e => ht.cur oid ok (by rw [hpc]; rfl) e
    split
    · exact h.same rfl rfl rfl (ht.done fun ok e => ⟨_, hc ok e⟩) (by rw [hth, done_script]) (done_register _)
        (by rw [hth]; exact hall)
    · exact h.same rfl rfl rfl (ht.cont rfl rfl rfl rfl rfl hc) (by rw [hth]) (by simp) (by rw [hth]; exact hall)
  · rename_i oid q cid hpc
    have hc : ∀ ok, th.script[th.next]? = some (.create ok) → dget s.objects oid = some (t, th.next) :=
      fun ok e => ht.cur oid ok (by rw [hpc]; rfl) e
    refine h.same rfl rfl rfl (ht.done fun ok e => ⟨_, hc ok e⟩) (by rw [hth, done_script]) (done_register _) ?_
    rw [hth]
    intro c hcm
    rcases mem_modify_all hcm with hm | rfl
    · exact .inl hm
    · exact .inr ⟨rfl, rfl, by rw [hpc]; rfl⟩
  · rename_i q hpc
    exact h.same rfl rfl rfl ⟨by simp, ht.made, by simp [Pc.oid], fun _ => ht.run (.inr (by rw [hpc]; rfl)),
      by simp⟩ (by rw [hth]) (by simp) (by rw [hth]; exact hall)
  · rename_i q saved hpc
    refine h.same rfl rfl rfl ⟨by simp, ht.made, by simp [Pc.oid], fun _ => ht.run (.inr (by rw [hpc]; rfl)),
      by simp⟩ (by rw [hth]) (by simp) ?_
    rw [hth]
    intro c hcm
    exact hall c (by rw [TWorld.all, TWorld.onQueue, modify_flag_all] at hcm; exact hcm)
  · rename_i hpc
    obtain ⟨q, hq⟩ := ht.run (.inr (by rw [hpc]; rfl))
    split
    · exact h
    · rename_i f hf
      split
      · exact h.same rfl rfl rfl (ht.cont rfl rfl rfl rfl rfl (fun ok e => by rw [hq] at e; cases e))
          (by rw [hth]) (by simp) (by rw [hth]; exact hall)
      · exact h.same rfl rfl rfl ⟨by simp, ht.made, by simp [Pc.oid], fun _ => ⟨q, hq⟩, by simp [hf]⟩
          (by rw [hth]) (by simp) (by rw [hth]; exact hall)
  · rename_i hpc
    obtain ⟨q, hq⟩ := ht.run (.inr (by rw [hpc]; rfl))
    split
    · exact h
    · rename_i f hf
      refine h.same rfl rfl rfl ⟨by simp, ?_, by simp [Pc.oid], by simp [Pc.running], by simp⟩
        (by rw [hth]) (by simp) ?_
      · intro k ok hk hs
        rcases Nat.lt_succ_iff_lt_or_eq.mp hk with hk | rfl
        · exact ht.made k ok hk hs
        · rw [hq] at hs; cases hs
      · rw [hth]
        intro c hcm
        exact hall c (by rw [TWorld.all, TWorld.onQueue, modify_flag_all] at hcm; exact hcm)

theorem ids_init (scripts : Nat → List TCall) (b : Bool) : IdsInv (tinit scripts b) where
  thr t := by
    refine ⟨?_, ?_, ?_, ?_, ?_⟩ <;> simp [tinit, Pc.oid, Pc.running]
  apart := by simp [tinit]
  keys := by simp [tinit]
  cmd := by cases b <;> simp [tinit, TWorld.all]

theorem trun_inv {P : TWorld → Prop} (hs : ∀ s t, P s → P (tstep s t)) {s : TWorld} (h : P s) (sched : List Nat) :
    P (trun s sched) := by
  unfold trun
  induction sched generalizing s with
  | nil => exact h
  | cons t ts ih => exact ih (hs s t h)

theorem trun_script (s : TWorld) (sched : List Nat) (u : Nat) :
    ((trun s sched).threads u).script = (s.threads u).script :=
  trun_inv (P := fun w => (w.threads u).script = (s.threads u).script)
    (fun w t h => (script_step w t u).trans h) rfl sched

/-- The number a command that is under way has got. -/
def Pc.cid : Pc → Option Nat
  | .push _ _ n | .append _ _ n => some n
  | _ => none

theorem all_append {qs : List TQueue} {q : Nat} {x : TCmd} :
    ((qs.modify q (fun u => { u with commands := u.commands ++ [x] })).flatMap (·.commands)).Perm
      (x :: qs.flatMap (·.commands)) ∨
    qs.modify q (fun u => { u with commands := u.commands ++ [x] }) = qs := by
  induction qs generalizing q with
  | nil => right; simp
  | cons u us ih =>
    cases q with
    | zero =>
      left
      simp only [List.modify_zero_cons, List.flatMap_cons, List.append_assoc, List.singleton_append]
      exact List.perm_middle
    | succ q =>
      rcases ih (q := q) with h | h
      · left
        simp only [List.modify_succ_cons, List.flatMap_cons]
        exact ((List.Perm.refl _).append h).trans List.perm_middle
      · right
        simp only [List.modify_succ_cons, h]

theorem commands_flag (s : TWorld) (q p : Nat) (b : Bool) :
    (s.onQueue q (fun u => { u with readonly := b })).commands p = s.commands p := by
  unfold TWorld.commands TWorld.onQueue
  rw [List.getElem?_modify]
  cases s.queues[p]? with
  | none => simp
  | some u => by_cases e : q = p <;> simp [e]

theorem commands_append (s : TWorld) (q p : Nat) (x : TCmd) :
    (s.onQueue q (fun u => { u with commands := u.commands ++ [x] })).commands p =
      s.commands p ++ (if p = q ∧ q < s.queues.length then [x] else []) := by
  unfold TWorld.commands TWorld.onQueue
  rw [List.getElem?_modify]
  by_cases e : q = p
  · subst e
    cases hq : s.queues[q]? with
    | none =>
      have := List.getElem?_eq_none_iff.mp hq
      simp [Nat.not_lt.mpr this]
    | some u =>
      obtain ⟨hl, -⟩ := List.getElem?_eq_some_iff.mp hq
      simp [hl]
  · have : ¬(p = q ∧ q < s.queues.length) := fun h => e h.1.symm
    simp only [e, if_false, this]
    cases s.queues[p]? <;> simp

/-- A step appends to no queue, or the command of the call or of the execution it ends to one. -/
theorem tstep_cases (s : TWorld) (t : Nat) :
    ((tstep s t).all = s.all ∧ (∀ q, (tstep s t).commands q = s.commands q) ∧
      ∀ u, (s.threads u).next ≤ ((tstep s t).threads u).next) ∨
    ∃ oid q cid, (s.threads t).pc = .append oid q cid ∧
      tstep s t = (s.onQueue q (fun u => { u with commands := u.commands ++
        [⟨cid, oid, t, (s.threads t).next, (s.threads t).frame.isSome⟩] })).put t (s.threads t).done := by
  have hd : ∀ th : TThread, th.next ≤ th.done.next := by
    intro th; unfold TThread.done; split <;> simp
  have hn : ∀ (w : TWorld) (th : TThread), w.threads = s.threads → (s.threads t).next ≤ th.next →
      ∀ u, (s.threads u).next ≤ ((w.put t th).threads u).next := by
    intro w th hw hth u
    rw [put_threads, hw]
    split
    · rename_i e; rw [e]; exact hth
    · exact Nat.le_refl _
  unfold tstep
  dsimp only
  cases hp : (s.threads t).pc with
  | append oid q cid => exact .inr ⟨oid, q, cid, rfl, rfl⟩
  | fresh oid =>
    left
    dsimp only
    refine ⟨by simp [TWorld.all, TWorld.put], fun q => ?_, hn _ _ rfl (Nat.le_refl _)⟩
    simp only [TWorld.commands, TWorld.put, List.getElem?_append]
    split
    · rfl
    · rename_i h
      rw [List.getElem?_eq_none_iff.mpr (Nat.not_lt.mp h)]
      rcases Nat.eq_zero_or_pos (q - s.queues.length) with e | e
      · simp [e]
      · rw [List.getElem?_eq_none_iff.mpr (by simpa using Nat.succ_le_of_lt e)]
  | runSet q saved =>
    left
    dsimp only
    exact ⟨by simp [TWorld.all, TWorld.put, TWorld.onQueue, modify_flag_all], fun p => commands_flag ..,
      hn _ _ rfl (Nat.le_refl _)⟩
  | runEnd =>
    left
    dsimp only
    split
    · exact ⟨rfl, fun _ => rfl, fun _ => Nat.le_refl _⟩
    · exact ⟨by simp [TWorld.all, TWorld.put, TWorld.onQueue, modify_flag_all], fun p => commands_flag ..,
        hn _ _ rfl (Nat.le_succ _)⟩
  | _ =>
    left
    dsimp only
    repeat' split
    all_goals first
      | exact ⟨rfl, fun _ => rfl, fun _ => Nat.le_refl _⟩
      | exact ⟨rfl, fun _ => rfl, hn _ _ rfl (Nat.le_refl _)⟩
      | exact ⟨rfl, fun _ => rfl, hn _ _ rfl (hd _)⟩

/-- The invariant of the numbers of commands. -/
structure TCidInv (s : TWorld) : Prop where
  le : ∀ c ∈ s.all, c.cid ≤ s.cids
  pend : ∀ t n, (s.threads t).pc.cid = some n → n ≤ s.cids ∧ ∀ c ∈ s.all, c.cid ≠ n
  apart : ∀ t u n, (s.threads t).pc.cid = some n → (s.threads u).pc.cid = some n → t = u
  nodup : (s.all.map (·.cid)).Nodup

theorem TCidInv.put {s' : TWorld} {th : TThread} (h : TCidInv s) (ht : s'.threads = s.threads)
    (hc : s'.cids = s.cids) (ha : s'.all = s.all)
    (hp : ∀ n, th.pc.cid = some n → (s.threads t).pc.cid = some n) : TCidInv (s'.put t th) := by
  have key : ∀ u n, ((s'.put t th).threads u).pc.cid = some n → (s.threads u).pc.cid = some n := by
    intro u n hu
    rw [put_threads, ht] at hu
    split at hu
    · rename_i e; rw [e]; exact hp n hu
    · exact hu
  have ha' : (s'.put t th).all = s.all := ha
  refine ⟨?_, ?_, ?_, ?_⟩
  · rw [ha', put_cids, hc]; exact h.le
  · intro u n hu; rw [ha', put_cids, hc]; exact h.pend u n (key u n hu)
  · intro u v n hu hv; exact h.apart u v n (key u n hu) (key v n hv)
  · rw [ha']; exact h.nodup

theorem done_cid (th : TThread) (n : Nat) : th.done.pc.cid ≠ some n := by
  unfold TThread.done; split <;> simp [Pc.cid]

theorem cid_step (h : TCidInv s) : TCidInv (tstep s t) := by
  unfold tstep
  dsimp only
  cases hp : (s.threads t).pc with
  | number oid q =>
    dsimp only
    have key : ∀ (u n : Nat), ((({ s with cids := s.cids + 1 } : TWorld).put t
        { s.threads t with pc := .push oid q (s.cids + 1) }).threads u).pc.cid = some n →
        (u = t ∧ n = s.cids + 1) ∨ (s.threads u).pc.cid = some n := by
      intro u n hu
      rw [put_threads] at hu
      split at hu
      · rename_i e; simp only [Pc.cid, Option.some.injEq] at hu; exact .inl ⟨e, hu.symm⟩
      · exact .inr hu
    refine ⟨fun c hc => (h.le c hc).trans (Nat.le_succ _), ?_, ?_, h.nodup⟩
    · intro u n hu
      rcases key u n hu with ⟨-, rfl⟩ | hu
      · exact ⟨Nat.le_refl _, fun c hc e => absurd (h.le c hc) (by omega)⟩
      · exact ⟨(h.pend u n hu).1.trans (Nat.le_succ _), (h.pend u n hu).2⟩
    · intro u v n hu hv
      rcases key u n hu with ⟨hu1, hu2⟩ | hu <;> rcases key v n hv with ⟨hv1, hv2⟩ | hv
      · rw [hu1, hv1]
      · have := (h.pend v n hv).1; omega
      · have := (h.pend u n hu).1; omega
      · exact h.apart u v n hu hv
  | append oid q cid =>
    dsimp only
    have hcid : (s.threads t).pc.cid = some cid := by rw [hp]; rfl
    obtain ⟨hle, hne⟩ := h.pend t cid hcid
    rcases all_append (qs := s.queues) (q := q)
      (x := ⟨cid, oid, t, (s.threads t).next, (s.threads t).frame.isSome⟩) with hperm | hsame
    · have key : ∀ (u n : Nat), (((s.onQueue q (fun u => { u with commands := u.commands ++
          [⟨cid, oid, t, (s.threads t).next, (s.threads t).frame.isSome⟩] })).put t
          (s.threads t).done).threads u).pc.cid = some n → u ≠ t ∧ (s.threads u).pc.cid = some n := by
        intro u n hu
        rw [put_threads] at hu
        split at hu
        · exact absurd hu (done_cid _ _)
        · rename_i e; exact ⟨e, hu⟩
      refine ⟨?_, ?_, ?_, ?_⟩
      · intro c hc
        rcases List.mem_cons.mp (hperm.mem_iff.mp hc) with rfl | hc
        · exact hle
        · exact h.le c hc
      · intro u n hu
        obtain ⟨hne', hu⟩ := key u n hu
        refine ⟨(h.pend u n hu).1, fun c hc => ?_⟩
        rcases List.mem_cons.mp (hperm.mem_iff.mp hc) with rfl | hc
        · rintro rfl
          exact hne' (h.apart u t _ hu hcid)
        · exact (h.pend u n hu).2 c hc
      · intro u v n hu hv
        exact h.apart u v n (key u n hu).2 (key v n hv).2
      · refine ((hperm.map (·.cid)).nodup_iff).mpr ?_
        simp only [List.map_cons, List.nodup_cons]
        refine ⟨?_, h.nodup⟩
        intro hm
        obtain ⟨c, hc, e⟩ := List.mem_map.mp hm
        exact hne c hc e
    · exact h.put rfl rfl (by unfold TWorld.all TWorld.onQueue; rw [hsame])
        (fun n hn => absurd hn (done_cid _ _))
  | fresh oid =>
    exact h.put rfl rfl (by simp [TWorld.all]) (by simp [Pc.cid])
  | runSet q saved =>
    exact h.put rfl rfl (by simp [TWorld.all, TWorld.onQueue, modify_flag_all]) (by simp [Pc.cid])
  | runEnd =>
    dsimp only
    split
    · exact h
    · exact h.put rfl rfl (by simp [TWorld.all, TWorld.onQueue, modify_flag_all]) (by simp [Pc.cid])
  | push oid q cid =>
    dsimp only
    split
    · exact h.put rfl rfl rfl (fun n hn => absurd hn (done_cid _ _))
    · exact h.put rfl rfl rfl (fun n hn => by rw [hp]; exact hn)
  | _ =>
    dsimp only
    repeat' split
    all_goals first
      | exact h
      | exact h.put rfl rfl rfl (fun n hn => absurd hn (done_cid _ _))
      | exact h.put rfl rfl rfl (by simp [Pc.cid])

theorem cid_init (scripts : Nat → List TCall) (b : Bool) : TCidInv (tinit scripts b) := by
  constructor <;> cases b <;> simp [tinit, TWorld.all, Pc.cid]

/-- The invariant of what is recorded of a call: nothing before it ends, and nothing twice. -/
structure OnceInv (s : TWorld) : Prop where
  lt : ∀ c ∈ s.all, c.inner = false → c.call < (s.threads c.thread).next
  nodup : ((s.all.filter (fun c => !c.inner)).map (fun c => (c.thread, c.call))).Nodup

theorem once_step (h : OnceInv s) : OnceInv (tstep s t) := by
  rcases tstep_cases s t with ⟨ha, -, hn⟩ | ⟨oid, q, cid, hp, e⟩
  · refine ⟨?_, by rw [ha]; exact h.nodup⟩
    intro c hc hi
    rw [ha] at hc
    exact Nat.lt_of_lt_of_le (h.lt c hc hi) (hn _)
  · rw [e]
    have hn : ∀ u, (s.threads u).next ≤ (((s.onQueue q (fun u => { u with commands := u.commands ++
        [⟨cid, oid, t, (s.threads t).next, (s.threads t).frame.isSome⟩] })).put t
        (s.threads t).done).threads u).next := by
      intro u
      rw [put_threads]
      split
      · rename_i e; rw [e]; unfold TThread.done; split <;> simp
      · exact Nat.le_refl _
    rcases all_append (qs := s.queues) (q := q)
      (x := ⟨cid, oid, t, (s.threads t).next, (s.threads t).frame.isSome⟩) with hperm | hsame
    · refine ⟨?_, ?_⟩
      · intro c hc hi
        rcases List.mem_cons.mp (hperm.mem_iff.mp hc) with rfl | hc
        · have hf : (s.threads t).frame = none := by simpa using hi
          simp [TThread.done, hf]
        · exact Nat.lt_of_lt_of_le (h.lt c hc hi) (hn _)
      · refine ((hperm.filter _).map _).nodup_iff.mpr ?_
        rw [List.filter_cons]
        split
        · rename_i hi
          rw [List.map_cons, List.nodup_cons]
          refine ⟨?_, h.nodup⟩
          intro hm
          obtain ⟨c, hc, e⟩ := List.mem_map.mp hm
          obtain ⟨hc, hi'⟩ := List.mem_filter.mp hc
          have := h.lt c hc (by simpa using hi')
          simp only [Prod.mk.injEq] at e
          rw [e.1, e.2] at this
          exact Nat.lt_irrefl _ this
        · exact h.nodup
    · have hall : ((s.onQueue q (fun u => { u with commands := u.commands ++
          [⟨cid, oid, t, (s.threads t).next, (s.threads t).frame.isSome⟩] })).put t
          (s.threads t).done).all = s.all := by
        unfold TWorld.all TWorld.put TWorld.onQueue; simp only [hsame]
      refine ⟨?_, by rw [hall]; exact h.nodup⟩
      intro c hc hi
      rw [hall] at hc
      exact Nat.lt_of_lt_of_le (h.lt c hc hi) (hn _)

theorem once_init (scripts : Nat → List TCall) (b : Bool) : OnceInv (tinit scripts b) := by
  constructor <;> cases b <;> simp [tinit, TWorld.all]

theorem next_step (s : TWorld) (t u : Nat) : (s.threads u).next ≤ ((tstep s t).threads u).next := by
  rcases tstep_cases s t with ⟨-, -, hn⟩ | ⟨oid, q, cid, hp, e⟩
  · exact hn u
  · rw [e, put_threads]
    split
    · rename_i e; rw [e]; unfold TThread.done; split <;> simp
    · exact Nat.le_refl _

/-- A queue only grows, by commands of calls that have not ended. -/
theorem trun_grows (s : TWorld) (sched : List Nat) (q : Nat) :
    ∃ l, (trun s sched).commands q = s.commands q ++ l ∧
      ∀ c ∈ l, c.inner = false → (s.threads c.thread).next ≤ c.call := by
  induction sched generalizing s with
  | nil => exact ⟨[], by simp [trun], by simp⟩
  | cons t ts ih =>
    obtain ⟨l, hl, hc⟩ := ih (tstep s t)
    have hl' : (trun s (t :: ts)).commands q = (tstep s t).commands q ++ l := hl
    rw [hl']
    have hc' : ∀ c ∈ l, c.inner = false → (s.threads c.thread).next ≤ c.call :=
      fun c hm hi => (next_step s t _).trans (hc c hm hi)
    rcases tstep_cases s t with ⟨-, hq, -⟩ | ⟨oid, q', cid, hp, e⟩
    · exact ⟨l, by rw [hq], hc'⟩
    · have : (tstep s t).commands q = s.commands q ++ (if q = q' ∧ q' < s.queues.length then
          [⟨cid, oid, t, (s.threads t).next, (s.threads t).frame.isSome⟩] else []) := by
        rw [e]; exact commands_append s q' q _
      rw [this, List.append_assoc]
      refine ⟨_, rfl, ?_⟩
      intro c hm hi
      rcases List.mem_append.mp hm with hm | hm
      · split at hm
        · rw [List.mem_singleton.mp hm]
        · simp at hm
      · exact hc' c hm hi

theorem commands_all {q : Nat} {c : TCmd} (h : c ∈ s.commands q) : c ∈ s.all := by
  unfold TWorld.commands at h
  cases hq : s.queues[q]? with
  | none => rw [hq] at h; simp at h
  | some u =>
    rw [hq] at h
    exact List.mem_flatMap.mpr ⟨u, List.mem_of_getElem? hq, by simpa using h⟩

/-- The invariant of which calls are recorded. -/
structure OkInv (s : TWorld) : Prop where
  busy : ∀ t o, (s.threads t).pc.oid = some o → (s.threads t).frame = none →
    (s.threads t).script[(s.threads t).next]? = some (.create true) ∨
    (s.threads t).script[(s.threads t).next]? = some (.use o true)
  cmds : ∀ c ∈ s.all, c.inner = false →
    (s.threads c.thread).script[c.call]? = some (.create true) ∨
    (s.threads c.thread).script[c.call]? = some (.use c.oid true)

theorem OkInv.put {s' : TWorld} {th : TThread} (h : OkInv s) (ht : s'.threads = s.threads)
    (hs : th.script = (s.threads t).script)
    (ha : ∀ c ∈ s'.all, c ∈ s.all ∨ (c.thread = t ∧ c.call = (s.threads t).next ∧
      (s.threads t).pc.oid = some c.oid ∧ (c.inner = false → (s.threads t).frame = none)))
    (hb : ∀ o, th.pc.oid = some o → th.frame = none → th.script[th.next]? = some (.create true) ∨
      th.script[th.next]? = some (.use o true)) : OkInv (s'.put t th) where
  busy u o := by
    rw [put_threads, ht]
    split
    · exact hb o
    · exact h.busy u o
  cmds c hc hi := by
    have e : ((s'.put t th).threads c.thread).script = (s.threads c.thread).script := by
      rw [put_threads, ht]
      split
      · rename_i e; rw [hs, e]
      · rfl
    rw [e]
    rcases ha c hc with hm | ⟨h1, h2, h3, h4⟩
    · exact h.cmds c hm hi
    · rw [h1, h2]
      exact h.busy t _ h3 (h4 hi)

theorem done_oid (th : TThread) (n : Nat) : th.done.pc.oid ≠ some n := by
  unfold TThread.done; split <;> simp [Pc.oid]

theorem ok_step (h : OkInv s) : OkInv (tstep s t) := by
  have hall : ∀ c ∈ s.all, c ∈ s.all ∨ (c.thread = t ∧ c.call = (s.threads t).next ∧
      (s.threads t).pc.oid = some c.oid ∧ (c.inner = false → (s.threads t).frame = none)) := fun c hc => .inl hc
  have hbusy := h.busy t
  unfold tstep
  dsimp only
  cases hp : (s.threads t).pc with
  | start =>
    dsimp only
    split
    · exact h
    · exact h.put rfl rfl hall (by simp [Pc.oid])
    · rename_i oid ok hs
      split
      · rename_i hok
        subst hok
        refine h.put rfl rfl hall ?_
        intro o ho _
        simp only [Pc.oid, Option.some.injEq] at ho
        subst ho
        exact .inr hs
      · exact h.put rfl (done_script _) hall (fun o ho => absurd ho (done_oid _ _))
    · exact h.put rfl rfl hall (by simp [Pc.oid])
  | register oid =>
    dsimp only
    split
    · rename_i hs
      exact h.put rfl rfl hall (fun o _ _ => .inl hs)
    · exact h.put rfl (done_script _) hall (fun o ho => absurd ho (done_oid _ _))
  | fresh oid =>
    refine h.put rfl rfl (fun c hc => .inl (by simpa [TWorld.all] using hc)) ?_
    intro o ho hf
    exact hbusy o (by rw [hp]; exact ho) hf
  | append oid q cid =>
    refine h.put rfl (done_script _) ?_ (fun o ho => absurd ho (done_oid _ _))
    intro c hc
    rcases mem_modify_all hc with hm | rfl
    · exact .inl hm
    · exact .inr ⟨rfl, rfl, by rw [hp]; rfl, by simp⟩
  | runSet q saved =>
    exact h.put rfl rfl (fun c hc => .inl (by simpa [TWorld.all, TWorld.onQueue, modify_flag_all] using hc))
      (by simp)
  | runLoop =>
    dsimp only
    split
    · exact h
    · rename_i f hf
      split
      all_goals exact h.put rfl rfl hall (by simp [hf])
  | runEnd =>
    dsimp only
    split
    · exact h
    · exact h.put rfl rfl (fun c hc => .inl (by simpa [TWorld.all, TWorld.onQueue, modify_flag_all] using hc))
        (by simp [Pc.oid])
  | runSave q => exact h.put rfl rfl hall (by simp [Pc.oid])
  | _ =>
    dsimp only
    repeat' split
    all_goals first
      | exact h.put rfl (done_script _) hall (fun o ho => absurd ho (done_oid _ _))
      | exact h.put rfl rfl hall (fun o ho hf => hbusy o (by rw [hp]; exact ho) hf)

theorem ok_init (scripts : Nat → List TCall) (b : Bool) : OkInv (tinit scripts b) := by
  constructor
  · simp [tinit, Pc.oid]
  · cases b <;> simp [tinit, TWorld.all]

/-- The queue a call under way records in. -/
def Pc.queue : Pc → Option Nat
  | .assign _ q | .check _ q | .number _ q | .push _ q _ | .append _ q _ => some q
  | _ => none

/-- What is true of one thread when no thread runs a queue and there is one queue. -/
structure ThreadRec (cs : List TCmd) (t : Nat) (th : TThread) : Prop where
  noRun : NoRun th.script
  frame : th.frame = none
  pc : th.pc.running = false ∧ (∀ o, th.pc ≠ .fresh o) ∧ (∀ q, th.pc.queue = some q → q = 0)
  busy : th.pc.oid ≠ none → (th.script[th.next]?).any TCall.recorded = true
  reg : ∀ o, th.pc = .register o → ∃ ok, th.script[th.next]? = some (.create ok)
  told : toldOf t cs = th.returned

/-- The invariant of recording when no thread runs a queue and there is one queue. -/
def TRecInv (s : TWorld) : Prop :=
  ∃ cs, s.queues = [⟨false, cs⟩] ∧ s.active = some 0 ∧ (∀ c ∈ cs, c.inner = false) ∧
    ∀ t, ThreadRec cs t (s.threads t)

theorem toldOf_append (t : Nat) (cs : List TCmd) (c : TCmd) :
    toldOf t (cs ++ [c]) = toldOf t cs ++ if c.thread = t then [c.call] else [] := by
  unfold toldOf
  rw [List.filter_append, List.map_append]
  by_cases e : c.thread = t <;> simp [e]

theorem returned_done {th : TThread} (hf : th.frame = none) :
    th.done.returned = th.returned ++ if (th.script[th.next]?).any TCall.recorded then [th.next] else [] := by
  unfold TThread.returned TThread.done
  rw [hf]
  dsimp only
  rw [List.range_succ, List.filter_append]
  by_cases e : (th.script[th.next]?).any TCall.recorded = true <;> simp [e]

theorem ThreadRec.skip {cs : List TCmd} {th : TThread} (h : ThreadRec cs t th)
    (hn : (th.script[th.next]?).any TCall.recorded = false) : ThreadRec cs t th.done := by
  refine ⟨by rw [done_script]; exact h.noRun, ?_, ?_, ?_, ?_, ?_⟩
  · simp [TThread.done, h.frame]
  · simp [TThread.done, h.frame, Pc.running, Pc.queue]
  · simp [TThread.done, h.frame, Pc.oid]
  · simp [TThread.done, h.frame]
  · rw [returned_done h.frame, hn, h.told]; simp

theorem TRecInv.put {s' : TWorld} {th : TThread} {cs cs' : List TCmd}
    (h : ∀ u, ThreadRec cs u (s.threads u)) (hi : ∀ c ∈ cs', c.inner = false)
    (ht : s'.threads = s.threads) (hq : s'.queues = [⟨false, cs'⟩])
    (ha : s'.active = some 0) (hc : ∀ u, u ≠ t → toldOf u cs' = toldOf u cs) (hth : ThreadRec cs' t th) :
    TRecInv (s'.put t th) := by
  refine ⟨cs', hq, ha, hi, fun u => ?_⟩
  rw [put_threads, ht]
  split
  · rename_i e; rw [e]; exact hth
  · rename_i e
    obtain ⟨h1, h2, h3, h4, h5, h6⟩ := h u
    exact ⟨h1, h2, h3, h4, h5, (hc u e).trans h6⟩

theorem ThreadRec.cont {cs : List TCmd} {th : TThread} (h : ThreadRec cs t th) (p : Pc)
    (h1 : p.running = false) (h2 : ∀ o, p ≠ .fresh o) (h3 : ∀ q, p.queue = some q → q = 0)
    (h4 : ∀ o, p ≠ .register o) (h5 : (th.script[th.next]?).any TCall.recorded = true) :
    ThreadRec cs t { th with pc := p } :=
  ⟨h.noRun, h.frame, ⟨h1, h2, h3⟩, fun _ => h5, fun o ho => absurd ho (h4 o), h.told⟩

theorem rec_step (h : TRecInv s) : TRecInv (tstep s t) := by
  have h0 := h
  obtain ⟨cs, hq, hact, hin, hthr⟩ := h
  have ht := hthr t
  have hro : s.readonly 0 = false := by simp [TWorld.readonly, hq]
  unfold tstep
  dsimp only
  cases hp : (s.threads t).pc with
  | start =>
    dsimp only
    split
    · exact h0
    · rename_i ok hs
      exact TRecInv.put hthr hin rfl hq hact (fun _ _ => rfl)
        ⟨ht.noRun, ht.frame, by simp [Pc.running, Pc.queue], by simp [Pc.oid], fun o _ => ⟨ok, hs⟩, ht.told⟩
    · rename_i oid ok hs
      split
      · rename_i hok
        exact TRecInv.put hthr hin rfl hq hact (fun _ _ => rfl)
          (ht.cont _ rfl (by simp) (by simp [Pc.queue]) (by simp) (by rw [hs]; exact hok))
      · rename_i hok
        exact TRecInv.put hthr hin rfl hq hact (fun _ _ => rfl)
          (ht.skip (by rw [hs]; simpa [TCall.recorded] using hok))
    · rename_i q hs
      exact absurd (List.mem_of_getElem? hs) (ht.noRun q)
  | register oid =>
    obtain ⟨ok, hs⟩ := ht.reg oid hp
    dsimp only
    split
    · rename_i e
      exact TRecInv.put hthr hin rfl hq hact (fun _ _ => rfl)
        (ht.cont _ rfl (by simp) (by simp [Pc.queue]) (by simp) (by rw [e]; rfl))
    · rename_i e
      refine TRecInv.put hthr hin rfl hq hact (fun _ _ => rfl) (ht.skip ?_)
      rw [hs] at e ⊢
      cases ok
      · rfl
      · exact absurd rfl e
  | active oid =>
    have hb := ht.busy (by rw [hp]; simp [Pc.oid])
    dsimp only
    rw [if_neg (by rw [hact]; simp)]
    exact TRecInv.put hthr hin rfl hq hact (fun _ _ => rfl)
      (ht.cont _ rfl (by simp) (by simp [Pc.queue]) (by simp) hb)
  | fresh oid => exact absurd hp (ht.pc.2.1 oid)
  | assign oid q =>
    have hb := ht.busy (by rw [hp]; simp [Pc.oid])
    have hq0 := ht.pc.2.2 q (by rw [hp]; rfl)
    subst hq0
    exact TRecInv.put hthr hin rfl hq rfl (fun _ _ => rfl)
      (ht.cont _ rfl (by simp) (by simp [Pc.queue]) (by simp) hb)
  | getActive oid =>
    have hb := ht.busy (by rw [hp]; simp [Pc.oid])
    simp only [hact]
    exact TRecInv.put hthr hin rfl hq hact (fun _ _ => rfl)
      (ht.cont _ rfl (by simp) (by simp [Pc.queue]) (by simp) hb)
  | check oid q =>
    have hb := ht.busy (by rw [hp]; simp [Pc.oid])
    have hq0 := ht.pc.2.2 q (by rw [hp]; rfl)
    subst hq0
    simp only [hro, Bool.false_eq_true, if_false]
    exact TRecInv.put hthr hin rfl hq hact (fun _ _ => rfl)
      (ht.cont _ rfl (by simp) (by simp [Pc.queue]) (by simp) hb)
  | number oid q =>
    have hb := ht.busy (by rw [hp]; simp [Pc.oid])
    have hq0 := ht.pc.2.2 q (by rw [hp]; rfl)
    subst hq0
    exact TRecInv.put hthr hin rfl hq hact (fun _ _ => rfl)
      (ht.cont _ rfl (by simp) (by simp [Pc.queue]) (by simp) hb)
  | push oid q cid =>
    have hb := ht.busy (by rw [hp]; simp [Pc.oid])
    have hq0 := ht.pc.2.2 q (by rw [hp]; rfl)
    subst hq0
    simp only [hro, Bool.false_eq_true, if_false]
    exact TRecInv.put hthr hin rfl hq hact (fun _ _ => rfl)
      (ht.cont _ rfl (by simp) (by simp [Pc.queue]) (by simp) hb)
  | append oid q cid =>
    have hb := ht.busy (by rw [hp]; simp [Pc.oid])
    have hq0 := ht.pc.2.2 q (by rw [hp]; rfl)
    subst hq0
    dsimp only
    refine TRecInv.put (cs' := cs ++ [⟨cid, oid, t, (s.threads t).next, (s.threads t).frame.isSome⟩]) hthr ?_ rfl
      (by simp [TWorld.onQueue, hq]) hact ?_ ?_
    · intro c hc
      rcases List.mem_append.mp hc with hc | hc
      · exact hin c hc
      · rw [List.mem_singleton.mp hc]; simp [ht.frame]
    · intro u hu
      rw [toldOf_append, if_neg (fun e => hu e.symm), List.append_nil]
    · refine ⟨by rw [done_script]; exact ht.noRun, ?_, ?_, ?_, ?_, ?_⟩
      · simp [TThread.done, ht.frame]
      · simp [TThread.done, ht.frame, Pc.running, Pc.queue]
      · simp [TThread.done, ht.frame, Pc.oid]
      · simp [TThread.done, ht.frame]
      · rw [returned_done ht.frame, hb, toldOf_append, ht.told]; simp
  | runSave q => have := ht.pc.1; rw [hp] at this; cases this
  | runSet q b => have := ht.pc.1; rw [hp] at this; cases this
  | runLoop => have := ht.pc.1; rw [hp] at this; cases this
  | runEnd => have := ht.pc.1; rw [hp] at this; cases this

theorem rec_init {scripts : Nat → List TCall} (h : ∀ t, NoRun (scripts t)) : TRecInv (tinit scripts true) :=
  ⟨[], rfl, rfl, by simp, fun t => ⟨h t, rfl, by simp [tinit, Pc.running, Pc.queue], by simp [tinit, Pc.oid],
    by simp [tinit], rfl⟩⟩

theorem readonly_flag (s : TWorld) (q p : Nat) (b : Bool) :
    (s.onQueue q (fun u => { u with readonly := b })).readonly p =
      if p = q ∧ q < s.queues.length then b else s.readonly p := by
  unfold TWorld.readonly TWorld.onQueue
  rw [List.getElem?_modify]
  by_cases e : q = p
  · subst e
    cases hq : s.queues[q]? with
    | none =>
      have := List.getElem?_eq_none_iff.mp hq
      simp [Nat.not_lt.mpr this]
    | some u =>
      obtain ⟨hl, -⟩ := List.getElem?_eq_some_iff.mp hq
      simp [hl]
  · have : ¬(p = q ∧ q < s.queues.length) := fun h => e h.1.symm
    simp only [e, if_false, this]
    cases s.queues[p]? <;> simp

theorem readonly_append (s : TWorld) (q p : Nat) (x : TCmd) :
    (s.onQueue q (fun u => { u with commands := u.commands ++ [x] })).readonly p = s.readonly p := by
  unfold TWorld.readonly TWorld.onQueue
  rw [List.getElem?_modify]
  cases s.queues[p]? with
  | none => simp
  | some u => by_cases e : q = p <;> simp [e]

/-- The invariant of the flags when one thread only runs queues. -/
structure FlagInv (r : Nat) (s : TWorld) : Prop where
  noRun : ∀ t, t ≠ r → NoRun (s.threads t).script
  other : ∀ t, t ≠ r → (s.threads t).frame = none ∧ (s.threads t).pc.running = false
  quiet : (s.threads r).frame = none → ∀ q, s.readonly q = false
  saved : ∀ q b, (s.threads r).pc = .runSet q b → b = false
  inside : ∀ f, (s.threads r).frame = some f → f.saved = false ∧ (∀ q, q ≠ f.q → s.readonly q = false) ∧
    (∀ q, (s.threads r).pc ≠ .runSave q) ∧ (∀ q b, (s.threads r).pc ≠ .runSet q b) ∧
    (s.threads r).pc ≠ .start ∧ ∀ o, (s.threads r).pc ≠ .register o

/-- The program points a thread is not at while it runs a queue. -/
def Pc.before (p : Pc) : Prop := (∃ q, p = .runSave q) ∨ (∃ q b, p = .runSet q b) ∨ p = .start ∨ ∃ o, p = .register o

theorem FlagInv.put {r : Nat} {s' : TWorld} {th : TThread} (h : FlagInv r s) (ht : s'.threads = s.threads)
    (hro : ∀ q, s'.readonly q = s.readonly q) (hs : th.script = (s.threads t).script)
    (ho : t ≠ r → th.frame = none ∧ th.pc.running = false)
    (h1 : t = r → th.frame = none → (s.threads t).frame = none)
    (h2 : t = r → ∀ q b, th.pc = .runSet q b → b = false)
    (h3 : t = r → ∀ f, th.frame = some f → ∃ f0, (s.threads t).frame = some f0 ∧ f0.q = f.q ∧ f0.saved = f.saved ∧
      ¬ th.pc.before) : FlagInv r (s'.put t th) := by
  have hro' : ∀ q, (s'.put t th).readonly q = s.readonly q := hro
  refine ⟨?_, ?_, ?_, ?_, ?_⟩
  · intro u hu
    rw [put_threads, ht]
    split
    · rename_i e; rw [hs, ← e]; exact h.noRun u hu
    · exact h.noRun u hu
  · intro u hu
    rw [put_threads, ht]
    split
    · rename_i e; exact ho (e ▸ hu)
    · exact h.other u hu
  · rw [put_threads, ht]
    simp only [hro']
    split
    · rename_i e; intro hf; exact h.quiet (by rw [e]; exact h1 e.symm hf)
    · exact h.quiet
  · rw [put_threads, ht]
    split
    · rename_i e; exact h2 e.symm
    · exact h.saved
  · rw [put_threads, ht]
    simp only [hro']
    split
    · rename_i e
      intro f hf
      obtain ⟨f0, hf0, hq, hsv, hb⟩ := h3 e.symm f hf
      obtain ⟨i1, i2, -⟩ := h.inside f0 (by rw [e]; exact hf0)
      exact ⟨hsv ▸ i1, hq ▸ i2, fun q e => hb (.inl ⟨q, e⟩), fun q b e => hb (.inr (.inl ⟨q, b, e⟩)),
        fun e => hb (.inr (.inr (.inl e))), fun o e => hb (.inr (.inr (.inr ⟨o, e⟩)))⟩
    · exact h.inside

/-- A step to a program point within a call. -/
theorem FlagInv.cont {r : Nat} {s' : TWorld} (h : FlagInv r s) (p : Pc) (ht : s'.threads = s.threads)
    (hro : ∀ q, s'.readonly q = s.readonly q) (h1 : p.running = false) (h2 : ¬ p.before) :
    FlagInv r (s'.put t { s.threads t with pc := p }) := by
  refine h.put ht hro rfl (fun e => ⟨(h.other t e).1, h1⟩) (fun _ => id) ?_ (fun _ f hf => ⟨f, hf, rfl, rfl, h2⟩)
  intro _ q b e
  exact absurd (.inr (.inl ⟨q, b, e⟩)) h2

theorem FlagInv.done {r : Nat} {s' : TWorld} (h : FlagInv r s) (ht : s'.threads = s.threads)
    (hro : ∀ q, s'.readonly q = s.readonly q) : FlagInv r (s'.put t (s.threads t).done) := by
  refine h.put ht hro (done_script _) ?_ ?_ ?_ ?_
  · intro e
    simp [TThread.done, (h.other t e).1, Pc.running]
  · intro _
    unfold TThread.done
    split <;> simp [*]
  · intro _ q b
    unfold TThread.done
    split <;> simp
  · intro _ f
    unfold TThread.done
    split
    · rename_i hf; simp [hf]
    · rename_i g hg
      intro e
      simp only [Option.some.injEq] at e
      exact ⟨g, hg, by rw [← e], by rw [← e], by simp [Pc.before]⟩

theorem flag_step {r : Nat} (h : FlagInv r s) : FlagInv r (tstep s t) := by
  -- A thread at a program point of `run` is the one that runs queues.
  have hr : (s.threads t).pc.running = true → t = r := by
    intro e
    by_contra hne
    rw [(h.other t hne).2] at e
    cases e
  unfold tstep
  dsimp only
  cases hp : (s.threads t).pc with
  | start =>
    have hnone : (s.threads t).frame = none := by
      by_cases e : t = r
      · cases hf : (s.threads t).frame with
        | none => rfl
        | some f => exact absurd (e ▸ hp) (h.inside f (e ▸ hf)).2.2.2.2.1
      · exact (h.other t e).1
    dsimp only
    split
    · exact h
    · refine h.put rfl (fun _ => rfl) rfl (fun e => ⟨hnone, rfl⟩) (fun _ => id) (by simp) ?_
      intro _ f hf
      rw [hnone] at hf; cases hf
    · split
      · exact h.cont _ rfl (fun _ => rfl) rfl (by simp [Pc.before])
      · exact h.done rfl (fun _ => rfl)
    · rename_i q hs
      have e : t = r := by
        by_contra hne
        exact h.noRun t hne q (List.mem_of_getElem? hs)
      refine h.put rfl (fun _ => rfl) rfl (fun hne => absurd e hne) (fun _ => id) (by simp) ?_
      intro _ f hf
      rw [hnone] at hf; cases hf
  | register oid =>
    dsimp only
    split
    · exact h.cont _ rfl (fun _ => rfl) rfl (by simp [Pc.before])
    · exact h.done rfl (fun _ => rfl)
  | active oid =>
    dsimp only
    split
    all_goals exact h.cont _ rfl (fun _ => rfl) rfl (by simp [Pc.before])
  | fresh oid =>
    refine h.cont _ rfl (fun q => ?_) rfl (by simp [Pc.before])
    simp only [TWorld.readonly, List.getElem?_append]
    split
    · rfl
    · rename_i hl
      rw [List.getElem?_eq_none_iff.mpr (Nat.not_lt.mp hl)]
      rcases Nat.eq_zero_or_pos (q - s.queues.length) with e | e
      · simp [e]
      · rw [List.getElem?_eq_none_iff.mpr (by simpa using Nat.succ_le_of_lt e)]
  | assign oid q => exact h.cont _ rfl (fun _ => rfl) rfl (by simp [Pc.before])
  | getActive oid =>
    dsimp only
    split
    · exact h.done rfl (fun _ => rfl)
    · exact h.cont _ rfl (fun _ => rfl) rfl (by simp [Pc.before])
  | check oid q =>
    dsimp only
    split
    · exact h.done rfl (fun _ => rfl)
    · exact h.cont _ rfl (fun _ => rfl) rfl (by simp [Pc.before])
  | number oid q => exact h.cont _ rfl (fun _ => rfl) rfl (by simp [Pc.before])
  | push oid q cid =>
    dsimp only
    split
    · exact h.done rfl (fun _ => rfl)
    · exact h.cont _ rfl (fun _ => rfl) rfl (by simp [Pc.before])
  | append oid q cid => exact h.done rfl (fun p => readonly_append s q p _)
  | runSave q =>
    have e : t = r := hr (by rw [hp]; rfl)
    subst e
    have hnone : (s.threads t).frame = none := by
      cases hf : (s.threads t).frame with
      | none => rfl
      | some f => exact absurd hp ((h.inside f hf).2.2.1 q)
    refine h.put rfl (fun _ => rfl) rfl (fun hne => absurd rfl hne) (fun _ => id) ?_ ?_
    · rintro - q' b e
      simp only [Pc.runSet.injEq] at e
      rw [← e.2]
      exact h.quiet hnone q
    · intro _ f hf
      rw [hnone] at hf; cases hf
  | runSet q saved =>
    have e : t = r := hr (by rw [hp]; rfl)
    subst e
    have hsv := h.saved q saved hp
    have hnone : (s.threads t).frame = none := by
      cases hf : (s.threads t).frame with
      | none => rfl
      | some f => exact absurd hp ((h.inside f hf).2.2.2.1 q saved)
    have hq := h.quiet hnone
    refine ⟨?_, ?_, ?_, ?_, ?_⟩
    · intro u hu; rw [put_threads, if_neg hu]; exact h.noRun u hu
    · intro u hu; rw [put_threads, if_neg hu]; exact h.other u hu
    · simp
    · simp
    · intro f hf
      simp only [put_threads, if_true, Option.some.injEq] at hf
      subst hf
      refine ⟨hsv, ?_, by simp, by simp, by simp, by simp⟩
      intro p hne
      change (s.onQueue q (fun u => { u with readonly := true })).readonly p = false
      rw [readonly_flag, if_neg (fun e => hne e.1)]
      exact hq p
  | runLoop =>
    have e : t = r := hr (by rw [hp]; rfl)
    subst e
    dsimp only
    split
    · exact h
    · split
      · exact h.cont _ rfl (fun _ => rfl) rfl (by simp [Pc.before])
      · exact h.put rfl (fun _ => rfl) rfl (fun hne => absurd rfl hne) (fun _ => id) (by simp)
          (fun _ f hf => ⟨f, hf, rfl, rfl, by simp [Pc.before]⟩)
  | runEnd =>
    have e : t = r := hr (by rw [hp]; rfl)
    subst e
    dsimp only
    split
    · exact h
    · rename_i f hf
      obtain ⟨h1, h2, -⟩ := h.inside f hf
      refine ⟨?_, ?_, ?_, ?_, ?_⟩
      · intro u hu; rw [put_threads, if_neg hu]; exact h.noRun u hu
      · intro u hu; rw [put_threads, if_neg hu]; exact h.other u hu
      · intro _ p
        change (s.onQueue f.q (fun u => { u with readonly := f.saved })).readonly p = false
        rw [readonly_flag]
        split
        · exact h1
        · rename_i hne
          by_cases e : p = f.q
          · subst e
            have : s.queues.length ≤ f.q := Nat.not_lt.mp fun hl => hne ⟨rfl, hl⟩
            simp [TWorld.readonly, List.getElem?_eq_none_iff.mpr this]
          · exact h2 p e
      · simp
      · simp

theorem flag_init {scripts : Nat → List TCall} {r : Nat} (h : ∀ t, t ≠ r → NoRun (scripts t)) (b : Bool) :
    FlagInv r (tinit scripts b) := by
  refine ⟨h, by simp [tinit, Pc.running], ?_, by simp [tinit], by simp [tinit]⟩
  intro _ q
  cases b
  · simp [tinit, TWorld.readonly]
  · simp only [tinit, TWorld.readonly, if_true]
    rcases q with _ | q <;> simp

/-- A thread executes commands of a queue that gets the commands it executes. -/
def Endless (t n : Nat) (s : TWorld) : Prop :=
  ∃ cs f, s.queues = [⟨false, cs⟩] ∧ s.active = some 0 ∧ (s.threads t).frame = some f ∧ f.q = 0 ∧
    f.i < cs.length ∧ (s.threads t).next = n ∧
    ((s.threads t).pc = .runLoop ∨ (∃ o, (s.threads t).pc = .active o) ∨ (∃ o, (s.threads t).pc = .getActive o) ∨
      (∃ o, (s.threads t).pc = .check o 0) ∨ (∃ o, (s.threads t).pc = .number o 0) ∨
      (∃ o c, (s.threads t).pc = .push o 0 c) ∨ ∃ o c, (s.threads t).pc = .append o 0 c)

theorem endless_step {n : Nat} (h : Endless t n s) : Endless t n (tstep s t) := by
  obtain ⟨cs, f, hq, ha, hf, hf0, hi, hn, hp⟩ := h
  have hro : s.readonly 0 = false := by simp [TWorld.readonly, hq]
  have hc : s.commands 0 = cs := by simp [TWorld.commands, hq]
  unfold tstep
  dsimp only
  rcases hp with hp | ⟨o, hp⟩ | ⟨o, hp⟩ | ⟨o, hp⟩ | ⟨o, hp⟩ | ⟨o, c, hp⟩ | ⟨o, c, hp⟩
  · simp only [hp, hf, hf0, hc, List.getElem?_eq_getElem hi]
    exact ⟨cs, f, hq, ha, by simp [hf], hf0, hi, by simp [hn], by simp⟩
  · simp only [hp, ha]
    exact ⟨cs, f, hq, ha, by simp [hf], hf0, hi, by simp [hn], by simp⟩
  · simp only [hp, ha]
    exact ⟨cs, f, hq, ha, by simp [hf], hf0, hi, by simp [hn], by simp⟩
  · simp only [hp, hro]
    exact ⟨cs, f, hq, ha, by simp [hf], hf0, hi, by simp [hn], by simp⟩
  · simp only [hp]
    exact ⟨cs, f, hq, ha, by simp [hf], hf0, hi, by simp [hn], by simp⟩
  · simp only [hp, hro]
    exact ⟨cs, f, hq, ha, by simp [hf], hf0, hi, by simp [hn], by simp⟩
  · simp only [hp]
    refine ⟨cs ++ [_], { f with i := f.i + 1 }, by simp [TWorld.onQueue, hq]; rfl, ha, ?_, hf0, ?_, ?_, ?_⟩
    · simp [TThread.done, hf]
    · simpa using hi
    · simp [TThread.done, hf, hn]
    · simp [TThread.done, hf]

theorem tstep_other (s : TWorld) {t u : Nat} (h : u ≠ t) : (tstep s t).threads u = s.threads u := by
  unfold tstep
  dsimp only
  repeat' split
  all_goals first
    | rfl
    | simp [h]

theorem trun_other (sched : List Nat) (s : TWorld) {u : Nat} (h : u ∉ sched) :
    (trun s sched).threads u = s.threads u := by
  induction sched generalizing s with
  | nil => rfl
  | cons t ts ih =>
    have hu : u ≠ t := fun e => h (by simp [e])
    exact (ih (tstep s t) (fun e => h (by simp [e]))).trans (tstep_other s hu)

/-- With an active queue from the start, it is the only one. -/
structure ActInv (s : TWorld) : Prop where
  active : s.active = some 0
  one : s.queues.length = 1
  pcs : ∀ t, (∀ o, (s.threads t).pc ≠ .fresh o) ∧ ∀ q, (s.threads t).pc.queue = some q → q = 0

theorem ActInv.put {s' : TWorld} {th : TThread} (h : ActInv s) (ht : s'.threads = s.threads)
    (ha : s'.active = some 0) (hq : s'.queues.length = s.queues.length)
    (h1 : ∀ o, th.pc ≠ .fresh o) (h2 : ∀ q, th.pc.queue = some q → q = 0) : ActInv (s'.put t th) := by
  refine ⟨ha, hq.trans h.one, fun u => ?_⟩
  rw [put_threads, ht]
  split
  · exact ⟨h1, h2⟩
  · exact h.pcs u

theorem done_fresh (th : TThread) : (∀ o, th.done.pc ≠ .fresh o) ∧ ∀ q, th.done.pc.queue = some q → q = 0 := by
  unfold TThread.done; split <;> simp [Pc.queue]

theorem act_step (h : ActInv s) : ActInv (tstep s t) := by
  have ha := h.active
  unfold tstep
  dsimp only
  cases hp : (s.threads t).pc with
  | fresh o => exact absurd hp ((h.pcs t).1 o)
  | assign o q =>
    have := (h.pcs t).2 q (by rw [hp]; rfl)
    subst this
    exact h.put rfl rfl rfl (by simp) (by simp [Pc.queue])
  | active o =>
    dsimp only
    rw [if_neg (by rw [ha]; simp)]
    exact h.put rfl ha rfl (by simp) (by simp [Pc.queue])
  | getActive o =>
    simp only [ha]
    exact h.put rfl ha rfl (by simp) (by simp [Pc.queue])
  | check o q =>
    have := (h.pcs t).2 q (by rw [hp]; rfl)
    dsimp only
    split
    · exact h.put rfl ha rfl (done_fresh _).1 (done_fresh _).2
    · exact h.put rfl ha rfl (by simp) (by simpa [Pc.queue] using this)
  | number o q =>
    have := (h.pcs t).2 q (by rw [hp]; rfl)
    exact h.put rfl ha rfl (by simp) (by simpa [Pc.queue] using this)
  | push o q c =>
    have := (h.pcs t).2 q (by rw [hp]; rfl)
    dsimp only
    split
    · exact h.put rfl ha rfl (done_fresh _).1 (done_fresh _).2
    · exact h.put rfl ha rfl (by simp) (by simpa [Pc.queue] using this)
  | append o q c => exact h.put rfl ha (by simp [TWorld.onQueue]) (done_fresh _).1 (done_fresh _).2
  | runSet q b => exact h.put rfl ha (by simp [TWorld.onQueue]) (by simp) (by simp [Pc.queue])
  | runEnd =>
    dsimp only
    split
    · exact h
    · exact h.put rfl ha (by simp [TWorld.onQueue]) (by simp) (by simp [Pc.queue])
  | _ =>
    dsimp only
    repeat' split
    all_goals first
      | exact h
      | exact h.put rfl ha rfl (done_fresh _).1 (done_fresh _).2
      | exact h.put rfl ha rfl (by simp) (by simp [Pc.queue])

theorem act_init (scripts : Nat → List TCall) : ActInv (tinit scripts true) :=
  ⟨rfl, rfl, by simp [tinit, Pc.queue]⟩

/-- A call that is to be recorded has not returned. -/
def Pending (t k : Nat) (s : TWorld) : Prop :=
  (s.threads t).frame = none ∧ (s.threads t).next = k ∧
  ((s.threads t).script[k]?).any TCall.recorded = true ∧
  ((s.threads t).pc = .start ∨ (∃ o, (s.threads t).pc = .register o) ∨ (s.threads t).pc.oid ≠ none)

/-- A call is recorded in the first queue. -/
def Told (t k : Nat) (s : TWorld) : Prop :=
  ∃ c ∈ s.commands 0, c.thread = t ∧ c.call = k ∧ c.inner = false

theorem told_step {k u : Nat} (h : Told t k s) : Told t k (tstep s u) := by
  obtain ⟨c, hc, h⟩ := h
  obtain ⟨l, hl, -⟩ := trun_grows s [u] 0
  exact ⟨c, by rw [show tstep s u = trun s [u] from rfl, hl]; exact List.mem_append_left _ hc, h⟩

theorem pending_step {k : Nat} (hi : IdsInv s) (ha : ActInv s) (hro : s.readonly 0 = false)
    (h : Pending t k s) (u : Nat) : Pending t k (tstep s u) ∨ Told t k (tstep s u) := by
  by_cases hu : u = t
  · subst hu
    obtain ⟨hf, rfl, hr, hp⟩ := h
    have go : ∀ (s' : TWorld) (p : Pc), s'.threads = s.threads → ((∃ o, p = .register o) ∨ p.oid ≠ none) →
        Pending u (s.threads u).next (s'.put u { s.threads u with pc := p }) := by
      intro s' p ht hp
      simp only [Pending, put_threads, if_true]
      exact ⟨hf, trivial, hr, .inr hp⟩
    unfold tstep
    dsimp only
    have hq := (ha.pcs u).2
    cases hpc : (s.threads u).pc with
    | start =>
      dsimp only
      split
      · rename_i e; rw [e] at hr; simp at hr
      · exact .inl (go _ _ rfl (.inl ⟨_, rfl⟩))
      · rename_i o ok e
        rw [e] at hr
        have : ok = true := by simpa [TCall.recorded] using hr
        rw [if_pos this]
        exact .inl (go _ _ rfl (.inr (by simp [Pc.oid])))
      · rename_i e; rw [e] at hr; simp [TCall.recorded] at hr
    | register o =>
      obtain ⟨-, -, ok, hs⟩ := (hi.thr u).reg o hpc
      dsimp only
      rw [hs] at hr
      have : ok = true := by simpa [TCall.recorded] using hr
      rw [hs, this, if_pos rfl]
      exact .inl (go _ _ rfl (.inr (by simp [Pc.oid])))
    | active o =>
      dsimp only
      split
      all_goals exact .inl (go _ _ rfl (.inr (by simp [Pc.oid])))
    | fresh o => exact .inl (go _ _ rfl (.inr (by simp [Pc.oid])))
    | assign o q => exact .inl (go _ _ rfl (.inr (by simp [Pc.oid])))
    | getActive o =>
      simp only [ha.active]
      exact .inl (go _ _ rfl (.inr (by simp [Pc.oid])))
    | check o q =>
      have := hq q (by rw [hpc]; rfl)
      subst this
      simp only [hro, Bool.false_eq_true, if_false]
      exact .inl (go _ _ rfl (.inr (by simp [Pc.oid])))
    | number o q => exact .inl (go _ _ rfl (.inr (by simp [Pc.oid])))
    | push o q c =>
      have := hq q (by rw [hpc]; rfl)
      subst this
      simp only [hro, Bool.false_eq_true, if_false]
      exact .inl (go _ _ rfl (.inr (by simp [Pc.oid])))
    | append o q c =>
      have := hq q (by rw [hpc]; rfl)
      subst this
      right
      refine ⟨⟨c, o, u, (s.threads u).next, (s.threads u).frame.isSome⟩, ?_, rfl, rfl, by simp [hf]⟩
      have e := commands_append s 0 0 ⟨c, o, u, (s.threads u).next, (s.threads u).frame.isSome⟩
      have hl : (0 : Nat) = 0 ∧ 0 < s.queues.length := ⟨rfl, by rw [ha.one]; exact Nat.one_pos⟩
      rw [if_pos hl] at e
      change _ ∈ (s.onQueue 0 _).commands 0
      rw [e]
      simp
    | runSave q => rw [hpc] at hp; simp [Pc.oid] at hp
    | runSet q b => rw [hpc] at hp; simp [Pc.oid] at hp
    | runLoop => rw [hpc] at hp; simp [Pc.oid] at hp
    | runEnd => rw [hpc] at hp; simp [Pc.oid] at hp
  · left
    unfold Pending
    rw [tstep_other s (Ne.symm hu)]
    exact h

/-- What is true of one thread when no thread runs a queue. -/
structure ThreadSome (s : TWorld) (t : Nat) (th : TThread) : Prop where
  noRun : NoRun th.script
  frame : th.frame = none
  running : th.pc.running = false
  queue : ∀ q, th.pc.queue = some q → q < s.queues.length
  found : ∀ o, th.pc = .getActive o → s.active ≠ none
  busy : th.pc.oid ≠ none → (th.script[th.next]?).any TCall.recorded = true
  reg : ∀ o, th.pc = .register o → ∃ ok, th.script[th.next]? = some (.create ok)
  told : ∀ k, k < th.next → (th.script[k]?).any TCall.recorded = true →
    ∃ c ∈ s.all, c.thread = t ∧ c.call = k ∧ c.inner = false

/-- The invariant of recording when no thread runs a queue, whether there is one at first or not. -/
structure SomeInv (s : TWorld) : Prop where
  flags : ∀ q, s.readonly q = false
  act : ∀ q, s.active = some q → q < s.queues.length
  thr : ∀ t, ThreadSome s t (s.threads t)

theorem SomeInv.put {s' : TWorld} {th : TThread} (h : SomeInv s) (ht : s'.threads = s.threads)
    (hro : ∀ q, s'.readonly q = s.readonly q) (hl : s.queues.length ≤ s'.queues.length)
    (hact : ∀ q, s'.active = some q → q < s'.queues.length) (hsome : s.active ≠ none → s'.active ≠ none)
    (hall : ∀ c ∈ s.all, c ∈ s'.all) (hth : ThreadSome s' t th) : SomeInv (s'.put t th) where
  flags q := (hro q).trans (h.flags q)
  act := hact
  thr u := by
    rw [put_threads, ht]
    split
    · rename_i e
      rw [e]
      exact ⟨hth.noRun, hth.frame, hth.running, hth.queue, hth.found, hth.busy, hth.reg, hth.told⟩
    · obtain ⟨h1, h2, h3, h4, h5, h6, h7, h8⟩ := h.thr u
      exact ⟨h1, h2, h3, fun q hq => Nat.lt_of_lt_of_le (h4 q hq) hl, fun o ho => hsome (h5 o ho), h6, h7,
        fun k hk hr => (h8 k hk hr).imp fun c hc => ⟨hall c hc.1, hc.2⟩⟩

theorem ThreadSome.cont {s' : TWorld} {th : TThread} (h : ThreadSome s t th) (p : Pc)
    (hall : ∀ c ∈ s.all, c ∈ s'.all)
    (h1 : p.running = false) (h2 : ∀ q, p.queue = some q → q < s'.queues.length)
    (h3 : ∀ o, p = .getActive o → s'.active ≠ none)
    (h4 : ∀ o, p ≠ .register o) (h5 : (th.script[th.next]?).any TCall.recorded = true) :
    ThreadSome s' t { th with pc := p } :=
  ⟨h.noRun, h.frame, h1, h2, h3, fun _ => h5, fun o ho => absurd ho (h4 o),
    fun k hk hr => (h.told k hk hr).imp fun c hc => ⟨hall c hc.1, hc.2⟩⟩

theorem ThreadSome.ends {s' : TWorld} {th : TThread} (h : ThreadSome s t th) (hall : ∀ c ∈ s.all, c ∈ s'.all)
    (hn : (th.script[th.next]?).any TCall.recorded = true →
      ∃ c ∈ s'.all, c.thread = t ∧ c.call = th.next ∧ c.inner = false) : ThreadSome s' t th.done := by
  refine ⟨by rw [done_script]; exact h.noRun, ?_, ?_, ?_, ?_, ?_, ?_, ?_⟩
  · simp [TThread.done, h.frame]
  · simp [TThread.done, h.frame, Pc.running]
  · simp [TThread.done, h.frame, Pc.queue]
  · simp [TThread.done, h.frame]
  · simp [TThread.done, h.frame, Pc.oid]
  · simp [TThread.done, h.frame]
  · simp only [TThread.done, h.frame]
    intro k hk hr
    rcases Nat.lt_succ_iff_lt_or_eq.mp hk with hk | rfl
    · exact (h.told k hk hr).imp fun c hc => ⟨hall c hc.1, hc.2⟩
    · exact hn hr

theorem some_step (h : SomeInv s) : SomeInv (tstep s t) := by
  have h0 := h
  have ht := h.thr t
  have same : ∀ c ∈ s.all, c ∈ s.all := fun _ => id
  unfold tstep
  dsimp only
  cases hp : (s.threads t).pc with
  | start =>
    dsimp only
    split
    · exact h0
    · rename_i ok hs
      exact h.put rfl (fun _ => rfl) (Nat.le_refl _) h.act id same
        ⟨ht.noRun, ht.frame, rfl, by simp [Pc.queue], by simp, by simp [Pc.oid], fun o _ => ⟨ok, hs⟩, ht.told⟩
    · rename_i oid ok hs
      split
      · rename_i hok
        exact h.put rfl (fun _ => rfl) (Nat.le_refl _) h.act id same
          (ht.cont _ same rfl (by simp [Pc.queue]) (by simp) (by simp) (by rw [hs]; exact hok))
      · rename_i hok
        refine h.put rfl (fun _ => rfl) (Nat.le_refl _) h.act id same (ht.ends same fun hr => ?_)
        rw [hs] at hr
        exact absurd hr hok
    · rename_i q hs
      exact absurd (List.mem_of_getElem? hs) (ht.noRun q)
  | register oid =>
    obtain ⟨ok, hs⟩ := ht.reg oid hp
    dsimp only
    split
    · rename_i e
      exact h.put rfl (fun _ => rfl) (Nat.le_refl _) h.act id same
        (ht.cont _ same rfl (by simp [Pc.queue]) (by simp) (by simp) (by rw [e]; rfl))
    · rename_i e
      refine h.put rfl (fun _ => rfl) (Nat.le_refl _) h.act id same (ht.ends same fun hr => ?_)
      rw [hs] at e hr
      have : ok = true := by simpa [TCall.recorded] using hr
      exact absurd (by rw [this]) e
  | active oid =>
    have hb := ht.busy (by rw [hp]; simp [Pc.oid])
    dsimp only
    split
    · exact h.put rfl (fun _ => rfl) (Nat.le_refl _) h.act id same
        (ht.cont _ same rfl (by simp [Pc.queue]) (by simp) (by simp) hb)
    · rename_i e
      exact h.put rfl (fun _ => rfl) (Nat.le_refl _) h.act id same
        (ht.cont _ same rfl (by simp [Pc.queue]) (fun _ _ => e) (by simp) hb)
  | fresh oid =>
    have hb := ht.busy (by rw [hp]; simp [Pc.oid])
    have hall : ∀ c ∈ s.all, c ∈ (s.queues ++ [(⟨false, []⟩ : TQueue)]).flatMap TQueue.commands := by
      intro c hc; rw [List.flatMap_append]; exact List.mem_append_left _ hc
    refine h.put rfl (fun q => ?_) (by simp) (by simp) (by simp) hall
      (ht.cont _ hall rfl (by simp [Pc.queue]) (by simp) (by simp) hb)
    simp only [TWorld.readonly, List.getElem?_append]
    split
    · rfl
    · rename_i hl
      rw [List.getElem?_eq_none_iff.mpr (Nat.not_lt.mp hl)]
      rcases Nat.eq_zero_or_pos (q - s.queues.length) with e | e
      · simp [e]
      · rw [List.getElem?_eq_none_iff.mpr (by simpa using Nat.succ_le_of_lt e)]
  | assign oid q =>
    have hb := ht.busy (by rw [hp]; simp [Pc.oid])
    have hq := ht.queue q (by rw [hp]; rfl)
    refine h.put rfl (fun _ => rfl) (Nat.le_refl _) ?_ (by simp) same
      (ht.cont _ same rfl (by simp [Pc.queue]) (by simp) (by simp) hb)
    intro q' e
    simp only [Option.some.injEq] at e
    rw [← e]; exact hq
  | getActive oid =>
    have hb := ht.busy (by rw [hp]; simp [Pc.oid])
    dsimp only
    split
    · rename_i e
      exact absurd e (ht.found oid hp)
    · rename_i q e
      refine h.put rfl (fun _ => rfl) (Nat.le_refl _) h.act id same (ht.cont _ same rfl ?_ (by simp) (by simp) hb)
      intro q' e'
      simp only [Pc.queue, Option.some.injEq] at e'
      rw [← e']; exact h.act q e
  | check oid q =>
    have hb := ht.busy (by rw [hp]; simp [Pc.oid])
    have hq := ht.queue q (by rw [hp]; rfl)
    simp only [h.flags, Bool.false_eq_true, if_false]
    exact h.put rfl (fun _ => rfl) (Nat.le_refl _) h.act id same
      (ht.cont _ same rfl (by simpa [Pc.queue] using hq) (by simp) (by simp) hb)
  | number oid q =>
    have hb := ht.busy (by rw [hp]; simp [Pc.oid])
    have hq := ht.queue q (by rw [hp]; rfl)
    exact h.put rfl (fun _ => rfl) (Nat.le_refl _) h.act id same
      (ht.cont _ same rfl (by simpa [Pc.queue] using hq) (by simp) (by simp) hb)
  | push oid q cid =>
    have hb := ht.busy (by rw [hp]; simp [Pc.oid])
    have hq := ht.queue q (by rw [hp]; rfl)
    simp only [h.flags, Bool.false_eq_true, if_false]
    exact h.put rfl (fun _ => rfl) (Nat.le_refl _) h.act id same
      (ht.cont _ same rfl (by simpa [Pc.queue] using hq) (by simp) (by simp) hb)
  | append oid q cid =>
    have hq := ht.queue q (by rw [hp]; rfl)
    have hnew := commands_append s q q ⟨cid, oid, t, (s.threads t).next, (s.threads t).frame.isSome⟩
    rw [if_pos ⟨rfl, hq⟩] at hnew
    have hall : ∀ c ∈ s.all, c ∈ (s.onQueue q (fun u => { u with commands := u.commands ++
        [⟨cid, oid, t, (s.threads t).next, (s.threads t).frame.isSome⟩] })).all := by
      intro c hc
      rcases all_append (qs := s.queues) (q := q)
        (x := ⟨cid, oid, t, (s.threads t).next, (s.threads t).frame.isSome⟩) with hperm | hsame
      · exact hperm.mem_iff.mpr (List.mem_cons_of_mem _ hc)
      · unfold TWorld.all TWorld.onQueue; rw [hsame]; exact hc
    refine h.put rfl (fun p => readonly_append s q p _) (by simp [TWorld.onQueue])
      (by simpa [TWorld.onQueue] using h.act) id hall (ht.ends hall fun _ => ?_)
    exact ⟨_, commands_all (by rw [hnew]; exact List.mem_append_right _ (List.mem_singleton.mpr rfl)), rfl, rfl,
      by simp [ht.frame]⟩
  | runSave q => have := ht.running; rw [hp] at this; cases this
  | runSet q b => have := ht.running; rw [hp] at this; cases this
  | runLoop => have := ht.running; rw [hp] at this; cases this
  | runEnd => have := ht.running; rw [hp] at this; cases this

theorem some_init {scripts : Nat → List TCall} (h : ∀ t, NoRun (scripts t)) (b : Bool) :
    SomeInv (tinit scripts b) := by
  refine ⟨?_, ?_, fun t => ⟨h t, rfl, rfl, by simp [tinit, Pc.queue], by simp [tinit], by simp [tinit, Pc.oid],
    by simp [tinit], by simp [tinit]⟩⟩
  · intro q
    cases b
    · simp [tinit, TWorld.readonly]
    · simp only [tinit, TWorld.readonly, if_true]
      rcases q with _ | q <;> simp
  · cases b <;> simp [tinit]

theorem one_of_nodup {cs : List TCmd} {k : Nat} {c : TCmd}
    (h : ((cs.filter fun c => !c.inner).map fun c => (c.thread, c.call)).Nodup) (hc : c ∈ cs)
    (h1 : c.inner = false) (h2 : c.thread = t) (h3 : c.call = k) :
    (cs.filter fun c => !c.inner && c.thread == t && c.call == k).length = 1 := by
  induction cs with
  | nil => simp at hc
  | cons d ds ih =>
    have none_of : ∀ l : List TCmd, (t, k) ∉ (l.filter fun c => !c.inner).map (fun c => (c.thread, c.call)) →
        l.filter (fun c => !c.inner && c.thread == t && c.call == k) = [] := by
      intro l hl
      rw [List.filter_eq_nil_iff]
      intro e he hcon
      simp only [Bool.and_eq_true, Bool.not_eq_true', beq_iff_eq] at hcon
      exact hl (List.mem_map.mpr ⟨e, List.mem_filter.mpr ⟨he, by simp [hcon.1.1]⟩, by rw [hcon.1.2, hcon.2]⟩)
    rw [List.filter_cons] at h
    by_cases hd : d.inner = false
    · rw [if_pos (by simp [hd]), List.map_cons, List.nodup_cons] at h
      by_cases e : d.thread = t ∧ d.call = k
      · rw [List.filter_cons, if_pos (by simp [hd, e.1, e.2]), none_of ds (by rw [← e.1, ← e.2]; exact h.1)]
        rfl
      · rw [List.filter_cons, if_neg (by simpa [hd] using fun h1 h2 => e ⟨h1, h2⟩)]
        refine ih h.2 ((List.mem_cons.mp hc).resolve_left ?_)
        rintro rfl
        exact e ⟨h2, h3⟩
    · rw [if_neg (by simp [hd])] at h
      rw [List.filter_cons, if_neg (by simp [hd])]
      refine ih h ((List.mem_cons.mp hc).resolve_left ?_)
      rintro rfl
      exact hd h1

end Verif
