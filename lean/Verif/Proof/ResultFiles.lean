import Verif.Spec.ResultFiles
import Verif.Props.Launchers

/-! Lemmas about the files of the experiments. -/

set_option linter.unusedSectionVars false
set_option linter.unusedSimpArgs false

namespace Verif
open Spec

mutual
theorem encode_plain : ∀ v : PyVal, encode true v = encode false (plainVal v)
  | .none => by simp [encode, plainVal]
  | .bool b => by simp [encode, plainVal]
  | .num q => by simp [encode, plainVal]
  | .str s => by simp [encode, plainVal]
  | .npInt i => by simp [encode, plainVal]
  | .npFloat d q => by simp [encode, plainVal]
  | .npBool b => by simp [encode, plainVal]
  | .array l => by simp [encode, plainVal, encodeElems_plain l]
  | .list l => by simp [encode, plainVal, encodeL_plain l]
  | .dict l => by simp [encode, plainVal, encodeD_plain l]
  | .object => by simp [encode, plainVal]
theorem encodeL_plain : ∀ l : List PyVal, encodeL true l = encodeL false (plainL l)
  | [] => by simp [encodeL, plainL]
  | x :: l => by rw [encodeL, plainL, encodeL, encode_plain x, encodeL_plain l]
theorem encodeElem_plain : ∀ v : PyVal, encodeElem true v = encode false (plainElem v)
  | .none => by simp [encodeElem, encode, plainElem]
  | .bool b => by simp [encodeElem, encode, plainElem]
  | .num q => by simp [encodeElem, encode, plainElem]
  | .str s => by simp [encodeElem, encode, plainElem]
  | .npInt i => by simp [encodeElem, encode, plainElem]
  | .npFloat d q => by simp [encodeElem, encode, plainElem]
  | .npBool b => by simp [encodeElem, encode, plainElem]
  | .array l => by simp [encodeElem, encode, plainElem, encodeElems_plain l]
  | .list l => by simp [encodeElem, encode, plainElem, encodeL_plain l]
  | .dict l => by simp [encodeElem, encode, plainElem, encodeD_plain l]
  | .object => by simp [encodeElem, encode, plainElem]
theorem encodeElems_plain : ∀ l : List PyVal, encodeElems true l = encodeL false (plainElems l)
  | [] => by simp [encodeElems, encodeL, plainElems]
  | x :: l => by rw [encodeElems, plainElems, encodeL, encodeElem_plain x, encodeElems_plain l]
theorem encodeD_plain : ∀ l : List (String × PyVal), encodeD true l = encodeD false (plainD l)
  | [] => by simp [encodeD, plainD]
  | (k, x) :: l => by rw [encodeD, plainD, encodeD, encode_plain x, encodeD_plain l]
end

/-! ### What is written -/

/-- A computation that raises `TypeError` exactly if `P`. -/
def RefusesIf {α : Type} (P : Prop) (x : Py α) : Prop := (x = .error .typeError ∧ P) ∨ ∃ y, x = .ok y ∧ ¬ P

theorem refuses_pair {α β γ : Type} {P Q R : Prop} {x : Py α} {y : Py β} {z : Py γ} (hx : RefusesIf P x) (hy : RefusesIf Q y) (hR : R ↔ P ∨ Q)
    (h1 : ∀ e, x = .error e → z = .error e) (h2 : ∀ a e, x = .ok a → y = .error e → z = .error e)
    (h3 : ∀ a b, x = .ok a → y = .ok b → ∃ c, z = .ok c) : RefusesIf R z := by
  rcases hx with ⟨hx, hp⟩ | ⟨a, hx, hp⟩
  · exact .inl ⟨h1 _ hx, hR.2 (.inl hp)⟩
  · rcases hy with ⟨hy, hq⟩ | ⟨b, hy, hq⟩
    · exact .inl ⟨h2 _ _ hx hy, hR.2 (.inr hq)⟩
    · obtain ⟨c, hc⟩ := h3 _ _ hx hy
      exact .inr ⟨c, hc, fun h => (hR.1 h).elim hp hq⟩

theorem refuses_map {α β : Type} {P R : Prop} {x : Py α} {z : Py β} (hx : RefusesIf P x) (hR : R ↔ P)
    (h1 : ∀ e, x = .error e → z = .error e) (h2 : ∀ a, x = .ok a → ∃ c, z = .ok c) : RefusesIf R z := by
  rcases hx with ⟨hx, hp⟩ | ⟨a, hx, hp⟩
  · exact .inl ⟨h1 _ hx, hR.2 hp⟩
  · obtain ⟨c, hc⟩ := h2 _ hx
    exact .inr ⟨c, hc, fun h => hp (hR.1 h)⟩

mutual
theorem encode_refuses (np : Bool) : ∀ v : PyVal, RefusesIf (Unwritable np v) (encode np v)
  | .none => by unfold encode; exact .inr ⟨_, rfl, nofun⟩
  | .bool b => by unfold encode; exact .inr ⟨_, rfl, nofun⟩
  | .num q => by unfold encode; exact .inr ⟨_, rfl, nofun⟩
  | .str s => by unfold encode; exact .inr ⟨_, rfl, nofun⟩
  | .npInt i => by
      unfold encode
      cases np with
      | true => exact .inr ⟨_, rfl, by intro h; cases h with | npInt _ h => cases h⟩
      | false => exact .inl ⟨rfl, .npInt i rfl⟩
  | .npFloat d q => by
      unfold encode
      cases np with
      | true => exact .inr ⟨.num q, by simp, by intro h; cases h with | npFloat _ h => cases h⟩
      | false =>
        cases d with
        | true => exact .inr ⟨_, rfl, nofun⟩
        | false => exact .inl ⟨rfl, .npFloat q rfl⟩
  | .npBool b => by unfold encode; exact .inl ⟨rfl, .npBool b⟩
  | .array l => by
      unfold encode
      have ih := encodeElems_refuses np l
      cases np with
      | true =>
        refine refuses_map ih ⟨?_, fun ⟨x, hx, hu⟩ => by exact .inArray hx hu⟩ (fun e h => by simp [h]) (fun a h => ⟨_, by simp only [h]; rfl⟩)
        intro h
        cases h with
        | array _ h => cases h
        | inArray hx hu => exact ⟨_, hx, hu⟩
      | false => exact .inl ⟨rfl, .array l rfl⟩
  | .list l => by
      unfold encode
      refine refuses_map (encodeL_refuses np l) ⟨?_, fun ⟨x, hx, hu⟩ => by exact .inList hx hu⟩ (fun e h => by simp [h]) (fun a h => ⟨_, by simp only [h]; rfl⟩)
      intro h
      cases h with
      | inList hx hu => exact ⟨_, hx, hu⟩
  | .dict l => by
      unfold encode
      refine refuses_map (encodeD_refuses np l) ⟨?_, fun ⟨k, x, hx, hu⟩ => by exact .inDict hx hu⟩ (fun e h => by simp [h]) (fun a h => ⟨_, by simp only [h]; rfl⟩)
      intro h
      cases h with
      | inDict hx hu => exact ⟨_, _, hx, hu⟩
  | .object => by unfold encode; exact .inl ⟨rfl, .object⟩

theorem encodeL_refuses (np : Bool) : ∀ l : List PyVal, RefusesIf (∃ x ∈ l, Unwritable np x) (encodeL np l)
  | [] => by unfold encodeL; exact .inr ⟨_, rfl, by simp⟩
  | x :: l => by
      unfold encodeL
      exact refuses_pair (encode_refuses np x) (encodeL_refuses np l) (by simp) (fun e h => by simp [h]) (fun a e h h' => by simp [h, h']) (fun a b h h' => ⟨_, by simp only [h, h']; rfl⟩)

theorem encodeElem_refuses (np : Bool) : ∀ v : PyVal, RefusesIf (UnwritableElem np v) (encodeElem np v)
  | .none => by unfold encodeElem; exact .inr ⟨_, rfl, nofun⟩
  | .bool b => by unfold encodeElem; exact .inr ⟨_, rfl, nofun⟩
  | .num q => by unfold encodeElem; exact .inr ⟨_, rfl, nofun⟩
  | .str s => by unfold encodeElem; exact .inr ⟨_, rfl, nofun⟩
  | .npInt i => by unfold encodeElem; exact .inr ⟨_, rfl, nofun⟩
  | .npFloat d q => by unfold encodeElem; exact .inr ⟨_, rfl, nofun⟩
  | .npBool b => by unfold encodeElem; exact .inr ⟨_, rfl, nofun⟩
  | .array l => by
      unfold encodeElem
      refine refuses_map (encodeElems_refuses np l) ⟨?_, fun ⟨x, hx, hu⟩ => by exact .inArray hx hu⟩ (fun e h => by simp [h]) (fun a h => ⟨_, by simp only [h]; rfl⟩)
      intro h
      cases h with
      | inArray hx hu => exact ⟨_, hx, hu⟩
  | .list l => by
      unfold encodeElem
      refine refuses_map (encodeL_refuses np l) ⟨?_, fun ⟨x, hx, hu⟩ => by exact .inList hx hu⟩ (fun e h => by simp [h]) (fun a h => ⟨_, by simp only [h]; rfl⟩)
      intro h
      cases h with
      | inList hx hu => exact ⟨_, hx, hu⟩
  | .dict l => by
      unfold encodeElem
      refine refuses_map (encodeD_refuses np l) ⟨?_, fun ⟨k, x, hx, hu⟩ => by exact .inDict hx hu⟩ (fun e h => by simp [h]) (fun a h => ⟨_, by simp only [h]; rfl⟩)
      intro h
      cases h with
      | inDict hx hu => exact ⟨_, _, hx, hu⟩
  | .object => by unfold encodeElem; exact .inl ⟨rfl, .object⟩

theorem encodeElems_refuses (np : Bool) : ∀ l : List PyVal, RefusesIf (∃ x ∈ l, UnwritableElem np x) (encodeElems np l)
  | [] => by unfold encodeElems; exact .inr ⟨_, rfl, by simp⟩
  | x :: l => by
      unfold encodeElems
      exact refuses_pair (encodeElem_refuses np x) (encodeElems_refuses np l) (by simp) (fun e h => by simp [h]) (fun a e h h' => by simp [h, h']) (fun a b h h' => ⟨_, by simp only [h, h']; rfl⟩)

theorem encodeD_refuses (np : Bool) : ∀ l : List (String × PyVal), RefusesIf (∃ k x, (k, x) ∈ l ∧ Unwritable np x) (encodeD np l)
  | [] => by unfold encodeD; exact .inr ⟨_, rfl, by simp⟩
  | (k, x) :: l => by
      unfold encodeD
      refine refuses_pair (encode_refuses np x) (encodeD_refuses np l) ?_ (fun e h => by simp [h]) (fun a e h h' => by simp [h, h'])
        (fun a b h h' => ⟨_, by simp only [h, h']; rfl⟩)
      constructor
      · rintro ⟨k', y, h, hu⟩
        rcases List.mem_cons.1 h with h | h
        · cases h; exact .inl hu
        · exact .inr ⟨k', y, h, hu⟩
      · rintro (hu | ⟨k', y, h, hu⟩)
        · exact ⟨k, x, by simp, hu⟩
        · exact ⟨k', y, by simp [h], hu⟩
end

theorem encode_int (k : Bool) (i : Int) : encode true (intVal k i) = .ok (.num i) := by
  unfold intVal
  cases k <;> simp [encode]

theorem encode_float (k : NumKind) (q : ℚ) : encode true (floatVal k q) = .ok (.num q) := by
  unfold floatVal
  cases k <;> simp [encode]

/-- The elements of a list one after the other. -/
theorem encodeL_map {α : Type} (np : Bool) (f : α → PyVal) (g : α → JVal) (l : List α) (h : ∀ x ∈ l, encode np (f x) = .ok (g x)) :
    encodeL np (l.map f) = .ok (l.map g) := by
  induction l with
  | nil => simp [encodeL]
  | cons x l ih =>
      rw [List.map_cons, encodeL, h x List.mem_cons_self, ih fun y hy => h y (List.mem_cons_of_mem _ hy)]
      rfl

theorem zipIdx_map_fst {α β : Type} (f : α → β) (l : List α) (n : Nat) : (l.zipIdx n).map (fun x => f x.1) = l.map f := by
  induction l generalizing n with
  | nil => rfl
  | cons x l ih => simp [ih]

theorem encode_ints (k : Nat → Bool) (l : List Nat) : encode true (intsVal k l) = .ok (.list (l.map fun (s : Nat) => .num (s : ℚ))) := by
  unfold intsVal
  rw [encode, encodeL_map true _ (fun x : Nat × Nat => JVal.num (x.1 : ℚ)) _ fun x _ => by
    rw [encode_int]; norm_cast]
  simp only
  rw [zipIdx_map_fst (fun s : Nat => JVal.num (s : ℚ))]

theorem encode_episode (k : Kinds) (elapsed : ℚ) (ep : Episode) : encode true (episodeVal k elapsed ep) = .ok (episodeJson elapsed ep) := by
  have hr : encode true (.list (ep.rewards.zipIdx.map fun x => floatVal (k.float "rewards" x.2) x.1)) = .ok (.list (ep.rewards.map .num)) := by
    rw [encode, encodeL_map true _ (fun x : ℚ × Nat => JVal.num x.1) _ (fun x _ => encode_float _ _)]
    simp only
    rw [zipIdx_map_fst (fun s : ℚ => JVal.num s)]
  unfold episodeVal episodeJson
  rw [encode]
  simp only [encodeD, encode_float, encode_ints, encode_int, hr]
  norm_cast

theorem encode_params (np : Bool) (double : String → Bool) (p : Params) : encode np (paramsVal double p) = .ok (paramsJson p) := by
  unfold paramsVal paramsJson
  rw [encode]
  have : encodeD np (p.map fun kv => (kv.1, paramVal (double kv.1) kv.2)) = .ok (p.map fun kv => (kv.1, paramJson kv.2)) := by
    induction p with
    | nil => simp [encodeD]
    | cons kv p ih =>
        have h1 : encode np (paramVal (double kv.1) kv.2) = .ok (paramJson kv.2) := by
          cases kv.2 with
          | num q => cases hd : double kv.1 <;> simp [paramVal, floatVal, encode, paramJson]
          | bool b => simp [paramVal, encode, paramJson]
          | str s => simp [paramVal, encode, paramJson]
        rw [List.map_cons, encodeD, h1, ih]
        rfl
  rw [this]

theorem encode_results (kinds : Nat → Kinds) (elapsed : Nat → ℚ) (warmup : ℚ) (r : ExpResults) :
    encode true (resultsVal kinds elapsed warmup r) = .ok (resultsJson elapsed warmup r) := by
  unfold resultsVal resultsJson
  have h : encode true (.list (r.evaluations.zipIdx.map fun x => episodeVal (kinds x.2) (elapsed x.2) x.1)) =
      .ok (.list (r.evaluations.zipIdx.map fun x => episodeJson (elapsed x.2) x.1)) := by
    rw [encode, encodeL_map true _ (fun x : Episode × Nat => episodeJson (elapsed x.2) x.1) _ (fun x _ => encode_episode _ _ _)]
  rw [encode]
  simp only [encodeD, encode_params, h]
  simp [encode]

theorem read_params (p : Params) : (paramsJson p).params = .ok p := by
  unfold paramsJson JVal.params
  induction p with
  | nil => rfl
  | cons kv p ih =>
      have h1 : (paramJson kv.2).param = .ok kv.2 := by cases kv.2 <;> rfl
      show readParams ((kv.1, paramJson kv.2) :: p.map fun kv => (kv.1, paramJson kv.2)) = _
      unfold readParams
      simp only [h1, bind, Except.bind]
      have ih' : readParams (p.map fun kv => (kv.1, paramJson kv.2)) = .ok p := ih
      rw [ih']

/-! ### Files -/

theorem writeJson_ok {np : Bool} {f : LabFile} {v : PyVal} {j : JVal} (h : encode np v = .ok j) (fs : LabFiles) :
    writeJson np f v fs = (.ok (), fun g => if g = f then some (some j) else fs g) := by
  unfold writeJson
  rw [h]

theorem prepare_spec (cfg : String → LabFile) (double : String → Bool) (l : Exps) (fs : LabFiles) :
    (prepareAll cfg double l fs).1 = .ok () ∧
    (∀ f, (∀ e ∈ l, cfg e.1 ≠ f) → (prepareAll cfg double l fs).2 f = fs f) ∧
    ((l.map Prod.fst).Nodup → (∀ a ∈ l.map Prod.fst, ∀ b ∈ l.map Prod.fst, cfg a = cfg b → a = b) →
      ∀ e ∈ l, (prepareAll cfg double l fs).2 (cfg e.1) = some (some (paramsJson e.2))) := by
  induction l generalizing fs with
  | nil => exact ⟨rfl, fun _ _ => rfl, fun _ _ e he => by simp at he⟩
  | cons e l ih =>
      have hw := writeJson_ok (f := cfg e.1) (encode_params false double e.2) fs
      have hr : prepareAll cfg double (e :: l) fs = prepareAll cfg double l (fun g => if g = cfg e.1 then some (some (paramsJson e.2)) else fs g) := by
        rw [prepareAll]
        exact M.bind_of_ok hw
      rw [hr]
      obtain ⟨h1, h2, h3⟩ := ih (fun g => if g = cfg e.1 then some (some (paramsJson e.2)) else fs g)
      refine ⟨h1, ?_, ?_⟩
      · intro f hf
        rw [h2 f fun x hx => hf x (List.mem_cons_of_mem _ hx)]
        simp [(hf e List.mem_cons_self).symm]
      · intro hn hc x hx
        rw [List.map_cons, List.nodup_cons] at hn
        rcases List.mem_cons.1 hx with rfl | hx
        · rw [h2 _ fun y hy hxy => ?_]
          · simp
          · have := hc y.1 (List.mem_map_of_mem (List.mem_cons_of_mem _ hy)) x.1 (by simp) hxy
            exact hn.1 (this ▸ List.mem_map_of_mem hy)
        · exact h3 hn.2 (fun a ha b hb => hc a (List.mem_cons_of_mem _ ha) b (List.mem_cons_of_mem _ hb)) x hx

/-- The run of a script whose configuration file is there. -/
theorem runScript_spec (cls : ExpClass) (cfg : String → LabFile) (J : JobWorld) (path name : String) (p : Params) (fs : LabFiles)
    (h : fs (cfg name) = some (some (paramsJson p))) :
    (∀ r, jobRun cls J p = .ok r → runScript cls cfg J path name fs =
      (.ok (), fun g => if g = (path, name ++ ".json") then some (some (resultsJson J.elapsed J.warmup r)) else fs g)) ∧
    (∀ e, jobRun cls J p = .error e → runScript cls cfg J path name fs = (.error e, fs)) := by
  have h1 : readJson (cfg name) fs = (.ok (paramsJson p), fs) := by
    unfold readJson
    rw [h]
  have h2 : (M.lift (paramsJson p).params : M LabFiles Params) fs = (.ok p, fs) := by
    unfold M.lift
    rw [read_params]
  refine ⟨?_, ?_⟩
  · intro r hr
    have h3 : (M.lift (cls.runFromArguments J.world (some p) (some path) (some name) false) :
        M LabFiles (ExpResults × Option (String × String))) fs = (.ok (r, some (path, name ++ ".json")), fs) := by
      unfold M.lift ExpClass.runFromArguments
      unfold jobRun at hr
      simp only [bind, Except.bind, hr, pure, Except.pure]
    unfold runScript
    refine (M.bind_of_ok h1).trans ((M.bind_of_ok h2).trans ((M.bind_of_ok h3).trans ?_))
    exact writeJson_ok (encode_results _ _ _ _) fs
  · intro e hr
    have h3 : (M.lift (cls.runFromArguments J.world (some p) (some path) (some name) false) :
        M LabFiles (ExpResults × Option (String × String))) fs = (.error e, fs) := by
      unfold M.lift ExpClass.runFromArguments
      unfold jobRun at hr
      simp only [bind, Except.bind, hr, pure, Except.pure]
    unfold runScript
    refine (M.bind_of_ok h1).trans ((M.bind_of_ok h2).trans ?_)
    rw [M.bind_run, h3]

theorem resultFile_inj {path a b : String} (h : (path, a ++ ".json") = (path, b ++ ".json")) : a = b := by
  have := congrArg (fun x => x.2.toList) h
  simp only [String.toList_append] at this
  exact String.toList_injective (List.append_cancel_right this)

/-- The files after the scripts of a list of names. -/
theorem runScripts_spec (cls : ExpClass) (cfg : String → LabFile) (J : String → JobWorld) (path : String) (names : List String) (params : String → Params)
    (hs : SeparateFiles cfg path names) (order : List String) (ho : ∀ n ∈ order, n ∈ names) (fs : LabFiles)
    (h : ∀ n ∈ names, fs (cfg n) = some (some (paramsJson (params n)))) :
    ∀ n ∈ names,
      (∀ r, jobRun cls (J n) (params n) = .ok r → (runScripts cls cfg J path order fs) (path, n ++ ".json") =
        if n ∈ order then some (some (resultsJson (J n).elapsed (J n).warmup r)) else fs (path, n ++ ".json")) ∧
      (∀ e, jobRun cls (J n) (params n) = .error e → (runScripts cls cfg J path order fs) (path, n ++ ".json") = fs (path, n ++ ".json")) := by
  induction order generalizing fs with
  | nil =>
      intro n hn
      exact ⟨fun r _ => by simp [runScripts], fun e _ => rfl⟩
  | cons m order ih =>
      intro n hn
      have hm : m ∈ names := ho m List.mem_cons_self
      obtain ⟨k1, k2⟩ := runScript_spec cls cfg (J m) path m (params m) fs (h m hm)
      rw [runScripts]
      cases hrun : jobRun cls (J m) (params m) with
      | error e =>
          rw [k2 e hrun]
          obtain ⟨i1, i2⟩ := ih (fun x hx => ho x (List.mem_cons_of_mem _ hx)) fs h n hn
          refine ⟨?_, i2⟩
          intro r hr
          rw [i1 r hr]
          have : n ≠ m := by
            rintro rfl
            rw [hrun] at hr
            cases hr
          simp [this]
      | ok r0 =>
          rw [k1 r0 hrun]
          have h' : ∀ x ∈ names, ((fun g => if g = (path, m ++ ".json") then some (some (resultsJson (J m).elapsed (J m).warmup r0)) else fs g) : LabFiles) (cfg x) =
              some (some (paramsJson (params x))) := by
            intro x hx
            simp only
            rw [if_neg (hs.2 x hx m hm)]
            exact h x hx
          obtain ⟨i1, i2⟩ := ih (fun x hx => ho x (List.mem_cons_of_mem _ hx))
            (fun g => if g = (path, m ++ ".json") then some (some (resultsJson (J m).elapsed (J m).warmup r0)) else fs g) h' n hn
          refine ⟨?_, ?_⟩
          · intro r hr
            rw [i1 r hr]
            by_cases hnm : n = m
            · subst hnm
              rw [hrun] at hr
              cases hr
              simp
            · have : (path, n ++ ".json") ≠ (path, m ++ ".json") := fun he => hnm (resultFile_inj he)
              simp [hnm, this]
          · intro e he
            rw [i2 e he]
            have hnm : n ≠ m := by
              rintro rfl
              rw [hrun] at he
              cases he
            have : (path, n ++ ".json") ≠ (path, m ++ ".json") := fun he => hnm (resultFile_inj he)
            rw [if_neg this]

/-! ### Results -/

theorem mapM_get {α : Type} (key : String) (f : α → JVal) (g : α → JVal) (l : List α) (h : ∀ x ∈ l, (f x).get key = .ok (g x)) :
    (l.map f).mapM (JVal.get key) = .ok (l.map g) := by
  induction l with
  | nil => rfl
  | cons x l ih =>
      rw [List.map_cons, List.mapM_cons, h x List.mem_cons_self, ih fun y hy => h y (List.mem_cons_of_mem _ hy)]
      rfl

theorem resultsFromOne_ok (path name : String) (J : JobWorld) (r : ExpResults) (fs : LabFiles)
    (h : fs (path, name ++ ".json") = some (some (resultsJson J.elapsed J.warmup r))) :
    resultsFromOne path name fs = (.ok (summary J r), fs) := by
  have h1 : readJson (path, name ++ ".json") fs = (.ok (resultsJson J.elapsed J.warmup r), fs) := by
    unfold readJson
    rw [h]
  unfold resultsFromOne
  refine (M.bind_of_ok h1).trans ?_
  refine (M.bind_of_ok (a := JVal.list (r.evaluations.zipIdx.map fun x => episodeJson (J.elapsed x.2) x.1)) (s1 := fs) rfl).trans ?_
  refine (M.bind_of_ok (a := r.evaluations.zipIdx.map fun x => episodeJson (J.elapsed x.2) x.1) (s1 := fs) rfl).trans ?_
  have e1 := mapM_get "return" (fun x : Episode × Nat => episodeJson (J.elapsed x.2) x.1) (fun x => .num x.1.ret) r.evaluations.zipIdx fun x _ => rfl
  have e2 := mapM_get "elapsed-time" (fun x : Episode × Nat => episodeJson (J.elapsed x.2) x.1) (fun x => .num (J.elapsed x.2)) r.evaluations.zipIdx
    fun x _ => rfl
  have e3 := mapM_get "simulator-calls" (fun x : Episode × Nat => episodeJson (J.elapsed x.2) x.1) (fun x => .num x.1.calls) r.evaluations.zipIdx
    fun x _ => rfl
  rw [e1, e2, e3]
  unfold summary
  rw [zipIdx_map_fst (fun ep : Episode => JVal.num ep.ret), zipIdx_map_fst (fun ep : Episode => JVal.num ep.calls)]
  rfl

theorem getResults_ok (path : String) (names : List String) (res : String → JobResults) (fs : LabFiles)
    (h : ∀ n ∈ names, resultsFromOne path n fs = (.ok (res n), fs)) :
    getResults path names fs = (.ok (names.map fun n => (n, res n)), fs) := by
  induction names with
  | nil => rfl
  | cons n names ih =>
      rw [getResults]
      refine (M.bind_of_ok (h n List.mem_cons_self)).trans ?_
      refine (M.bind_of_ok (ih fun x hx => h x (List.mem_cons_of_mem _ hx))).trans ?_
      rfl

theorem getResults_missing (path : String) (names : List String) (fs : LabFiles)
    (h : ∀ n ∈ names, fs (path, n ++ ".json") = none ∨ ∃ x, resultsFromOne path n fs = (.ok x, fs))
    (hm : ∃ n ∈ names, fs (path, n ++ ".json") = none) : getResults path names fs = (.error .osError, fs) := by
  induction names with
  | nil => obtain ⟨n, hn, _⟩ := hm; simp at hn
  | cons n names ih =>
      rw [getResults]
      have herr : fs (path, n ++ ".json") = none → (resultsFromOne path n >>= fun r => getResults path names >>= fun rs => pure ((n, r) :: rs)) fs =
          (.error .osError, fs) := by
        intro h0
        have : resultsFromOne path n fs = (.error .osError, fs) := by
          unfold resultsFromOne
          rw [M.bind_run]
          simp only [readJson, h0]
        rw [M.bind_run, this]
      rcases h n List.mem_cons_self with h0 | ⟨x, hx⟩
      · exact herr h0
      · refine (M.bind_of_ok hx).trans ?_
        have hm' : ∃ m ∈ names, fs (path, m ++ ".json") = none := by
          obtain ⟨m, hm1, hm2⟩ := hm
          rcases List.mem_cons.1 hm1 with rfl | hm1
          · exfalso
            have : resultsFromOne path m fs = (.error .osError, fs) := by
              unfold resultsFromOne
              rw [M.bind_run]
              simp only [readJson, hm2]
            rw [this] at hx
            cases hx
          · exact ⟨m, hm1, hm2⟩
        rw [M.bind_run, ih (fun y hy => h y (List.mem_cons_of_mem _ hy)) hm']

end Verif
