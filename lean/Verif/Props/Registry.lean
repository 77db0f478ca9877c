import Verif.Spec.Session
import Verif.Lemmas.Registry
/-! # C01, C02: object identifiers and the registry -/

namespace Verif

/-- C01. Whatever the history (including replays, id assignments and failing calls), the
i-th object ever constructed was given the id i+1 by its constructor: minted ids start at
1, are strictly increasing, and are never reused. -/
theorem minted_ids (P : Prog) (ops : List Op) :
    (runOps P World.fresh ops).heap.map Obj.born =
      (List.range (runOps P World.fresh ops).heap.length).map (fun i : Nat => (i : Int) + 1) :=
  (minted_closed.runOps (w := World.fresh) ⟨rfl, rfl⟩).2

/-- C01. Two distinct constructor calls never mint the same id. -/
theorem minted_ids_distinct (P : Prog) (ops : List Op) (i j : Nat) (a b : Obj)
    (ha : (runOps P World.fresh ops).heap[i]? = some a)
    (hb : (runOps P World.fresh ops).heap[j]? = some b) :
    (a.born < b.born ↔ i < j) ∧ (a.born = b.born → i = j) := by
  have h := minted_ids P ops
  have key : ∀ (k : Nat) (o : Obj), (runOps P World.fresh ops).heap[k]? = some o → o.born = (k : Int) + 1 := by
    intro k o ho
    have hk : k < (runOps P World.fresh ops).heap.length := (List.getElem?_eq_some_iff.1 ho).1
    have := congrArg (fun l => l[k]?) h
    simp only [List.getElem?_map, ho, Option.map_some, List.getElem?_range hk,
      Option.some.injEq] at this
    exact this
  have h1 := key i a ha
  have h2 := key j b hb
  constructor
  · omega
  · omega

/-- A history with a failing constructor, an id assignment and a replay. -/
example :
    let w := runOps demo World.fresh
      [.create "Foo" [.int 5] [] false, .create "Foo" [.str "x"] [] false, .setId 0 40, .run 0]
    w.heap.map Obj.born = [1, 2, 3] ∧ w.heap.map Obj.id = [40, 2, 1] := by decide

/-- C01. As long as ids are not assigned (by hand or by a replay), all objects of the
session have pairwise distinct ids. -/
theorem object_ids_distinct (P : Prog) (ops : List Op) (hops : ∀ op ∈ ops, op.assignsId = false)
    (i j : Nat) (a b : Obj)
    (ha : (runOps P World.fresh ops).heap[i]? = some a)
    (hb : (runOps P World.fresh ops).heap[j]? = some b) (hid : a.id = b.id) : i = j := by
  have hI : IdIsBorn (runOps P World.fresh ops) := by
    have : ∀ ops : List Op, (∀ op ∈ ops, op.assignsId = false) → ∀ w, IdIsBorn w →
        IdIsBorn (runOps P w ops) := by
      intro ops
      induction ops with
      | nil => intro _ w h; exact h
      | cons op ops ih =>
        intro hops w h
        refine ih (fun o ho => hops o (List.mem_cons_of_mem _ ho)) _ ?_
        have hop := hops op (by simp)
        cases op with
        | create cls args kwargs nc =>
          have hc := idIsBorn_closed.construct (P := P) (cls := cls) (args := args)
            (kwargs := kwargs) (nc := nc) h
          simp only [step]
          split <;> (rename_i heq; rw [heq] at hc; exact hc)
        | call r func args kwargs nc => exact idIsBorn_closed.callMethod h
        | queue name =>
          intro o ho
          have : (step P w (.queue name)).1.heap = w.heap := by
            simp only [step, getQueue, getQueue.activeOrNew, newQueue]
            split
            · split <;> rfl
            · split
              · split <;> rfl
              · split <;> rfl
          rw [this] at ho
          exact h o ho
        | empty q => exact h
        | setReadonly q b => exact h
        | record b => exact h
        | objRecord b => exact h
        | setId r id => simp [Op.assignsId] at hop
        | resetObjects => exact h
        | run q => simp [Op.assignsId] at hop
        | register src dst f =>
          simp only [step]
          split <;> exact h
    exact this ops hops _ (by intro o ho; simp [World.fresh] at ho)
  have h1 := hI a (List.mem_of_getElem? ha)
  have h2 := hI b (List.mem_of_getElem? hb)
  exact (minted_ids_distinct P ops i j a b ha hb).2 (by omega)

example : (∀ op ∈ [Op.create "Foo" [.int 5] [] false, .create "Foo" [.int 6] [] true],
    op.assignsId = false) ∧
    (runOps demo World.fresh
      [.create "Foo" [.int 5] [] false, .create "Foo" [.int 6] [] true]).heap.map Obj.id
      = [1, 2] := by decide

/-! ### C02 -/

/-- C02. After any history, an id found in the registry leads to an object with that id. -/
theorem registry_coherent (P : Prog) (ops : List Op) (k : Int) (r : Nat)
    (h : dget (runOps P World.fresh ops).objects k = some r) :
    ∃ o, (runOps P World.fresh ops).heap[r]? = some o ∧ o.id = k :=
  coherent_closed.runOps (w := World.fresh) (by intro k r hk; simp [World.fresh] at hk) k r h

/-- Reassigned and colliding ids: object 0 takes the id of object 1, which moves on. -/
example : dget (runOps demo World.fresh
    [.create "Foo" [.int 5] [] false, .create "Foo" [.int 6] [] false,
     .setId 0 2, .setId 1 9]).objects 9 = some 1 := by decide

/-- C02. As long as objects are not hidden on purpose, every object ever constructed
(even by a call that was then rejected) is found in the registry under its id. -/
theorem registry_complete (P : Prog) (ops : List Op)
    (hops : ∀ op ∈ ops, op.hidesObjects = false) (i : Nat) (o : Obj)
    (ho : (runOps P World.fresh ops).heap[i]? = some o) :
    dget (runOps P World.fresh ops).objects o.id = some i := by
  have : ∀ ops : List Op, (∀ op ∈ ops, op.hidesObjects = false) → ∀ w, AllRegistered w →
      AllRegistered (runOps P w ops) := by
    intro ops
    induction ops with
    | nil => intro _ w h; exact h
    | cons op ops ih =>
      intro hops w h
      refine ih (fun o ho => hops o (List.mem_cons_of_mem _ ho)) _ ?_
      have hop := hops op (by simp)
      cases op with
      | create cls args kwargs nc =>
        have hc := allRegistered_closed.construct (P := P) (cls := cls) (args := args)
          (kwargs := kwargs) (nc := nc) h
        simp only [step]
        split <;> (rename_i heq; rw [heq] at hc; exact hc)
      | call r func args kwargs nc => exact allRegistered_closed.callMethod h
      | queue name =>
        obtain ⟨hm, hb, hr, ha⟩ := h
        simp only [step, getQueue, getQueue.activeOrNew, newQueue]
        split
        · split <;> exact ⟨hm, hb, hr, ha⟩
        · split
          · split <;> exact ⟨hm, hb, hr, ha⟩
          · split <;> exact ⟨hm, hb, hr, ha⟩
      | empty q => exact h
      | setReadonly q b => exact h
      | record b => exact h
      | objRecord b => simp [Op.hidesObjects] at hop
      | setId r id => simp [Op.hidesObjects] at hop
      | resetObjects => simp [Op.hidesObjects] at hop
      | run q => simp [Op.hidesObjects] at hop
      | register src dst f =>
        simp only [step]
        split <;> exact h
  exact (this ops hops World.fresh ⟨⟨rfl, rfl⟩, by intro o ho; simp [World.fresh] at ho, rfl,
    by intro i o ho; simp [World.fresh] at ho⟩).2.2.2 i o ho

/-- The second constructor call is rejected (a string for an int), its object is there. -/
example : dget (runOps demo World.fresh
    [.create "Foo" [.int 5] [] false, .create "Foo" [.str "x"] [] false]).objects 2 = some 1 := by
  decide

end Verif
