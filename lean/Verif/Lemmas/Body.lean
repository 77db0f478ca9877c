import Verif.Model.Session
/-
Two programs that differ in the exceptions of their bodies only.
-/

namespace Verif

/-- The program `P` with other exceptions. -/
def Prog.withRaises (P : Prog) (ρ : Obj → String → Dict String Val → Option Err) : Prog :=
  { P with raises := ρ }

/-- The same result, or one of the exceptions `D`. -/
def SameOr {α : Type} (D : Err → Prop) (x y : World × Except Err α) : Prop :=
  x = y ∨ ∃ e, x.2 = .error e ∧ D e

variable {P : Prog} {ρ : Obj → String → Dict String Val → Option Err} {D : Err → Prop}

theorem checkLoop_withRaises (cs : Dict (String × String) Nat) (pt : String) (bases : List String) (v : Val) :
    ∀ (anns : List String) (st : Bool × Val),
      checkLoop (P.withRaises ρ) cs pt bases v anns st = checkLoop P cs pt bases v anns st := by
  intro anns
  induction anns with
  | nil => intro st; rfl
  | cons a l ih =>
    intro st
    unfold checkLoop
    rw [show matchesType (P.withRaises ρ) pt a = matchesType P pt a from rfl,
      show searchConv (P.withRaises ρ) cs bases a v st = searchConv P cs bases a v st from rfl, ih]

theorem checkParam_withRaises (w : World) (an : Dict String (List String)) (k : String) (v : Val) :
    checkParam (P.withRaises ρ) w an k v = checkParam P w an k v := by
  unfold checkParam
  cases dget an k with
  | none => rfl
  | some l =>
    dsimp only
    rw [checkLoop_withRaises]
    rfl

theorem checkParams_withRaises (w : World) (an : Dict String (List String)) :
    ∀ ps : Dict String Val, checkParams (P.withRaises ρ) w an ps = checkParams P w an ps := by
  intro ps
  induction ps with
  | nil => rfl
  | cons p ps ih =>
    obtain ⟨k, v⟩ := p
    unfold checkParams
    rw [checkParam_withRaises, ih]

theorem recordCall_withRaises (w : World) (r : Nat) (f : String) (sg : Sig) (args : List Val)
    (kwargs : Dict String Val) (nc : Bool) :
    recordCall (P.withRaises ρ) w r f sg args kwargs nc = recordCall P w r f sg args kwargs nc := by
  unfold recordCall
  simp only [checkParams_withRaises]
  rfl

/-- The bodies differ in exceptions of `D` only. -/
def RaisesOr (D : Err → Prop) (ρ : Obj → String → Dict String Val → Option Err) (P : Prog) : Prop :=
  ∀ o f b, ρ o f b = P.raises o f b ∨ ∃ e, ρ o f b = some e ∧ D e

theorem callMethod_or (h : RaisesOr D ρ P) (w : World) (r : Nat) (f : String) (args : List Val)
    (kwargs : Dict String Val) (nc : Bool) :
    SameOr D (callMethod (P.withRaises ρ) w r f args kwargs nc) (callMethod P w r f args kwargs nc) := by
  unfold callMethod
  cases w.heap[r]? with
  | none => exact .inl rfl
  | some o =>
    dsimp only
    rw [show (P.withRaises ρ).sig o.cls f = P.sig o.cls f from rfl]
    cases P.sig o.cls f with
    | none => exact .inl rfl
    | some sg =>
      dsimp only
      cases bindArgs sg args kwargs with
      | error e => exact .inl rfl
      | ok b =>
        dsimp only
        rw [show (P.withRaises ρ).raises o f b = ρ o f b from rfl]
        rcases h o f b with h | ⟨e, h, hD⟩
        · rw [h, recordCall_withRaises]
          exact .inl rfl
        · rw [h]
          exact .inr ⟨e, rfl, hD⟩

theorem construct_or (h : RaisesOr D ρ P) (w : World) (cls : String) (args : List Val)
    (kwargs : Dict String Val) (nc : Bool) :
    SameOr D (construct (P.withRaises ρ) w cls args kwargs nc) (construct P w cls args kwargs nc) := by
  unfold construct
  rw [show (P.withRaises ρ).sig cls "__init__" = P.sig cls "__init__" from rfl]
  cases P.sig cls "__init__" with
  | none => exact .inl rfl
  | some sg =>
    dsimp only
    cases bindArgs sg args kwargs with
    | error e => exact .inl rfl
    | ok b =>
      dsimp only
      cases (newObject w cls).1.heap[(newObject w cls).2]? with
      | none => exact .inl rfl
      | some o =>
        dsimp only
        rw [show (P.withRaises ρ).raises o "__init__" b = ρ o "__init__" b from rfl]
        rcases h o "__init__" b with h | ⟨e, h, hD⟩
        · rw [h, recordCall_withRaises]
          exact .inl rfl
        · rw [h]
          exact .inr ⟨e, rfl, hD⟩

theorem callConv_or (h : RaisesOr D ρ P) (w : World) (f : Nat) (v : Val) :
    SameOr D (callConv (P.withRaises ρ) w f v) (callConv P w f v) := by
  unfold callConv
  rw [show (P.withRaises ρ).conv f v = P.conv f v from rfl]
  cases P.conv f v with
  | pure g => exact .inl rfl
  | make cls kw =>
    dsimp only
    rcases construct_or h w cls [] (kw v) false with hc | ⟨e, hc, hD⟩
    · rw [hc]; exact .inl rfl
    · refine .inr ⟨e, ?_, hD⟩
      cases hx : construct (P.withRaises ρ) w cls [] (kw v) false with
      | mk w' r =>
        rw [hx] at hc
        dsimp only at hc
        subst hc
        rfl
  | look key => exact .inl rfl

theorem resolveParams_or (h : RaisesOr D ρ P) : ∀ (ps : Dict String Val) (w : World) (acc : Dict String Val),
    SameOr D (resolveParams (P.withRaises ρ) w ps acc) (resolveParams P w ps acc) := by
  intro ps
  induction ps with
  | nil => intro w acc; exact .inl rfl
  | cons p ps ih =>
    intro w acc
    obtain ⟨k, v⟩ := p
    unfold resolveParams
    by_cases hk : endsWithId k = true
    · rw [if_pos hk, if_pos hk]
      cases v with
      | oid n => dsimp only; cases dget w.objects n with
        | none => exact .inl rfl
        | some r => exact ih _ _
      | int n => dsimp only; cases dget w.objects n with
        | none => exact .inl rfl
        | some r => exact ih _ _
      | _ => exact .inl rfl
    · rw [if_neg hk, if_neg hk]
      cases v with
      | oid n => dsimp only; cases dget w.objects n with
        | none => exact .inl rfl
        | some r => exact ih _ _
      | conv f v =>
        dsimp only
        rcases callConv_or h w f v with hc | ⟨e, hc, hD⟩
        · rw [hc]
          cases callConv P w f v with
          | mk w' r => cases r with
            | ok v' => exact ih _ _
            | error e => exact .inl rfl
        · refine .inr ⟨e, ?_, hD⟩
          cases hx : callConv (P.withRaises ρ) w f v with
          | mk w' r =>
            rw [hx] at hc
            dsimp only at hc
            subst hc
            rfl
      | _ => exact ih _ _

theorem execute_or (h : RaisesOr D ρ P) (w : World) (c : Cmd) :
    SameOr D (execute (P.withRaises ρ) w c) (execute P w c) := by
  unfold execute
  cases dget c.params "id" with
  | none => exact .inl rfl
  | some idv =>
    dsimp only
    cases idOf idv with
    | none => exact .inl rfl
    | some oid =>
      dsimp only
      rcases resolveParams_or h (ddel c.params "id") w [] with hc | ⟨e, hc, hD⟩
      · rw [hc]
        cases resolveParams P w (ddel c.params "id") [] with
        | mk w' r => cases r with
          | error e => exact .inl rfl
          | ok ps =>
            dsimp only
            by_cases h1 : hasChar '.' c.meth = true
            · rw [if_pos h1, if_pos h1]; exact .inl rfl
            · rw [if_neg h1, if_neg h1]
              by_cases h2 : c.meth = "__init__"
              · rw [if_pos h2, if_pos h2, show (P.withRaises ρ).resolve c.cls = P.resolve c.cls from rfl]
                cases P.resolve c.cls with
                | none => exact .inl rfl
                | some cls =>
                  dsimp only
                  rcases construct_or h w' cls [] ps false with hc | ⟨e, hc, hD⟩
                  · rw [hc]; exact .inl rfl
                  · refine .inr ⟨e, ?_, hD⟩
                    cases hx : construct (P.withRaises ρ) w' cls [] ps false with
                    | mk w' r =>
                      rw [hx] at hc
                      dsimp only at hc
                      subst hc
                      rfl
              · rw [if_neg h2, if_neg h2]
                cases dget w'.objects oid with
                | none => exact .inl rfl
                | some r => exact callMethod_or h _ _ _ _ _ _
      · refine .inr ⟨e, ?_, hD⟩
        cases hx : resolveParams (P.withRaises ρ) w (ddel c.params "id") [] with
        | mk w' r =>
          rw [hx] at hc
          dsimp only at hc
          subst hc
          rfl

theorem runCmds_or (h : RaisesOr D ρ P) : ∀ (cs : List Cmd) (w : World),
    SameOr D (runCmds (P.withRaises ρ) w cs) (runCmds P w cs) := by
  intro cs
  induction cs with
  | nil => intro w; exact .inl rfl
  | cons c cs ih =>
    intro w
    unfold runCmds
    rcases execute_or h w c with hc | ⟨e, hc, hD⟩
    · rw [hc]
      cases execute P w c with
      | mk w' r => cases r with
        | error e => exact .inl rfl
        | ok _ => exact ih _
    · refine .inr ⟨e, ?_, hD⟩
      cases hx : execute (P.withRaises ρ) w c with
      | mk w' r =>
        rw [hx] at hc
        dsimp only at hc
        subst hc
        rfl

theorem runQueue_or (h : RaisesOr D ρ P) (w : World) (q : Nat) :
    SameOr D (runQueue (P.withRaises ρ) w q) (runQueue P w q) := by
  unfold runQueue
  cases w.queues[q]? with
  | none => exact .inl rfl
  | some u =>
    dsimp only
    rcases runCmds_or h u.commands (setQueue w q (fun u => { u with readonly := true })) with hc | ⟨e, hc, hD⟩
    · rw [hc]; exact .inl rfl
    · refine .inr ⟨e, ?_, hD⟩
      cases hx : runCmds (P.withRaises ρ) (setQueue w q (fun u => { u with readonly := true })) u.commands with
      | mk w' r =>
        rw [hx] at hc
        dsimp only at hc
        subst hc
        rfl

end Verif
