import Verif.Props.Htm
import Verif.Spec.JsonTask

/-! Property C123 (reading task files) and the converse of C14. -/

set_option linter.unusedSectionVars false
set_option linter.unusedSimpArgs false

namespace Verif
open Spec

theorem JNode.induct {P : JNode → Prop}
    (h : ∀ n c i p a ch, (∀ cs, ch = some cs → ∀ d ∈ cs, P d) → P (.mk n c i p a ch)) (t : JNode) : P t := by
  refine JNode.rec (motive_1 := P) (motive_2 := fun ch => ∀ cs, ch = some cs → ∀ d ∈ cs, P d)
    (motive_3 := fun cs => ∀ d ∈ cs, P d) ?_ ?_ ?_ ?_ ?_ t
  · intro n c i p a ch ih
    exact h n c i p a ch ih
  · intro cs hcs
    cases hcs
  · intro cs ih cs' hcs
    cases hcs
    exact ih
  · intro d hd
    cases hd
  · intro d ds h1 h2 x hx
    rcases List.mem_cons.1 hx with rfl | hx
    · exact h1
    · exact h2 x hx

theorem buildLeaf_ok_iff (n : String) (i : Int) (p : Option Int) (as : List String) (t : Htm BaseAction) :
    buildLeaf n i p as = .ok t ↔ ∃ ag pre post, t = .leaf ⟨n, ag⟩ (some i) p false ∧ as = pre ++ ag :: post ∧
      ag ≠ "highlighted" ∧ ∀ x ∈ pre, x = "highlighted" := by
  unfold buildLeaf
  constructor
  · intro h
    rcases hf : as.filter (fun a => decide (a ≠ "highlighted")) with _ | ⟨y, ys⟩
    · rw [hf] at h; cases h
    · rw [hf] at h
      cases h
      obtain ⟨l1, l2, h1, h2, h3, h4⟩ := List.filter_eq_cons_iff.1 hf
      exact ⟨y, l1, l2, rfl, h1, by simpa using h3, fun x hx => by simpa using h2 x hx⟩
  · rintro ⟨ag, pre, post, rfl, rfl, h1, h2⟩
    have : (pre ++ ag :: post).filter (fun a => decide (a ≠ "highlighted")) =
        ag :: post.filter (fun a => decide (a ≠ "highlighted")) := by
      rw [List.filter_append, List.filter_eq_nil_iff.2 (fun x hx => by simp [h2 x hx]), List.nil_append,
        List.filter_cons_of_pos (by simpa using h1)]
    rw [this]

theorem buildLeaf_error_iff (n : String) (i : Int) (p : Option Int) (as : List String) (e : PyErr) :
    buildLeaf n i p as = .error e ↔ (∀ x ∈ as, x = "highlighted") ∧ e = .indexError := by
  unfold buildLeaf
  rcases hf : as.filter (fun a => decide (a ≠ "highlighted")) with _ | ⟨y, ys⟩
  · have h0 := List.filter_eq_nil_iff.1 hf
    simp only [ne_eq, decide_not, Bool.not_eq_eq_eq_not, Bool.not_true, decide_eq_false_iff_not, not_not] at h0
    constructor
    · rintro h; cases h; exact ⟨h0, rfl⟩
    · rintro ⟨_, rfl⟩; rfl
  · constructor
    · rintro h; cases h
    · rintro ⟨h, _⟩
      have : y ∈ as.filter (fun a => decide (a ≠ "highlighted")) := by rw [hf]; simp
      rw [List.mem_filter] at this
      exact absurd (h y this.1) (by simpa using this.2)

theorem combinationOf_ok_iff (c : Option String) (k : Kind) : combinationOf c = .ok k ↔ c = some k.str := by
  constructor
  · intro h
    cases c with
    | none => cases h
    | some s =>
      simp only [combinationOf, combinationClass] at h
      split_ifs at h with h1 h2 h3 <;> cases h <;> simp [Kind.str, *]
  · rintro rfl
    exact combinationClass_str k

theorem combinationOf_error_iff (c : Option String) (e : PyErr) :
    combinationOf c = .error e ↔ (∀ k : Kind, c ≠ some k.str) ∧ e = .keyError := by
  constructor
  · intro h
    refine ⟨fun k hk => ?_, ?_⟩
    · rw [(combinationOf_ok_iff c k).2 hk] at h; cases h
    · cases c with
      | none => cases h; rfl
      | some s =>
        simp only [combinationOf, combinationClass] at h
        split_ifs at h <;> cases h <;> rfl
  · rintro ⟨h, rfl⟩
    cases hc : combinationOf c with
    | ok k => exact absurd ((combinationOf_ok_iff c k).1 hc) (h k)
    | error e' =>
      cases c with
      | none => cases hc; rfl
      | some s =>
        simp only [combinationOf, combinationClass] at hc
        split_ifs at hc <;> cases hc <;> rfl

theorem mkComb_cases (k : Kind) (cs : List (Htm BaseAction)) (i p : Option Int) (n : String) :
    (k = .alternative ∧ cs = [] ∧ mkComb k cs i p n = .error .zeroDivisionError) ∨
    ((k = .alternative → cs ≠ []) ∧ mkComb k cs i p n = .ok (.comb k cs i p n false
      (if k = .alternative then some (List.replicate cs.length (1 / (cs.length : ℚ))) else none))) := by
  by_cases h : k = .alternative ∧ cs = []
  · obtain ⟨rfl, rfl⟩ := h
    left
    simp [mkComb, setProba, bind, Except.bind]
  · right
    have h' : k = .alternative → cs ≠ [] := fun h1 h2 => h ⟨h1, h2⟩
    exact ⟨h', mkComb_ok k cs i p n false none h' (fun _ ps hps => by cases hps)⟩

theorem fileTrees_length : ∀ (ds : List JNode) (ts : List (Htm BaseAction)), FileTrees ds ts → ds.length = ts.length
  | [], [], _ => rfl
  | [], _ :: _, h => by simp [FileTrees] at h
  | _ :: _, [], h => by simp [FileTrees] at h
  | _ :: ds, _ :: ts, h => by
      simp only [FileTrees] at h
      simp [fileTrees_length ds ts h.2]

theorem buildNodes_iff (cs : List JNode) (ih : ∀ d ∈ cs, (∀ t, buildNode d = .ok t ↔ FileTree d t) ∧
    ∀ e, buildNode d = .error e ↔ RefusedWith d e) :
    (∀ ts, buildNodes cs = .ok ts ↔ FileTrees cs ts) ∧ ∀ e, buildNodes cs = .error e ↔ AnyRefusedWith cs e := by
  induction cs with
  | nil =>
    refine ⟨fun ts => ?_, fun e => ?_⟩
    · cases ts <;> simp [buildNodes, FileTrees]
    · simp [buildNodes, AnyRefusedWith]
  | cons c cs ihc =>
    obtain ⟨h1, h2⟩ := ih c (by simp)
    obtain ⟨h3, h4⟩ := ihc (fun d hd => ih d (by simp [hd]))
    cases hb : buildNode c with
    | error e =>
      have hno : ¬ ∃ t, FileTree c t := by
        rintro ⟨t, ht⟩
        rw [(h1 t).2 ht] at hb
        cases hb
      refine ⟨fun ts => ?_, fun e' => ?_⟩
      · constructor
        · intro h; simp [buildNodes, hb, bind, Except.bind] at h
        · intro h
          cases ts with
          | nil => simp [FileTrees] at h
          | cons t ts => simp only [FileTrees] at h; exact absurd ⟨t, h.1⟩ hno
      · simp only [buildNodes, hb, bind, Except.bind, AnyRefusedWith, ← h2 e', hno, false_and, or_false]
        constructor
        · rintro h; cases h; rfl
        · rintro h; cases h; rfl
    | ok t =>
      have ht := (h1 t).1 hb
      have hno : ∀ e, ¬ RefusedWith c e := fun e he => by
        rw [(h2 e).2 he] at hb
        cases hb
      have huniq : ∀ t', FileTree c t' → t' = t := fun t' ht' => by
        have := (h1 t').2 ht'
        rw [hb] at this
        cases this; rfl
      refine ⟨fun ts => ?_, fun e => ?_⟩
      · cases hbs : buildNodes cs with
        | error e =>
          constructor
          · intro h; simp [buildNodes, hb, hbs, bind, Except.bind] at h
          · intro h
            cases ts with
            | nil => simp [FileTrees] at h
            | cons t' ts =>
              simp only [FileTrees] at h
              rw [(h3 ts).2 h.2] at hbs
              cases hbs
        | ok bs =>
          simp only [buildNodes, hb, hbs, bind, Except.bind, pure, Except.pure]
          constructor
          · intro h
            cases h
            exact ⟨ht, (h3 bs).1 hbs⟩
          · intro h
            cases ts with
            | nil => simp [FileTrees] at h
            | cons t' ts =>
              simp only [FileTrees] at h
              rw [huniq t' h.1]
              have := (h3 ts).2 h.2
              rw [hbs] at this
              cases this
              rfl
      · simp only [AnyRefusedWith, hno e, false_or, ← h4 e]
        cases hbs : buildNodes cs with
        | error e' =>
          simp only [buildNodes, hb, hbs, bind, Except.bind]
          constructor
          · intro h; cases h; exact ⟨⟨t, ht⟩, rfl⟩
          · rintro ⟨_, h⟩; cases h; rfl
        | ok bs =>
          simp [buildNodes, hb, hbs, bind, Except.bind, pure, Except.pure]

theorem fileTree_lacks (n c i p a ch) (t : Htm BaseAction) (h : LacksKey (.mk n c i p a ch)) :
    ¬ FileTree (.mk n c i p a ch) t := by
  intro ht
  simp only [LacksKey] at h
  cases t with
  | leaf act i' p' hl =>
    cases ch <;> simp only [FileTree] at ht <;>
      · obtain ⟨h1, h2, h3, h4, h5, -, as, h6, -⟩ := ht
        rcases h with h | h | h | h | h <;> simp_all
  | comb k cs i' p' n' hl pr =>
    cases ch <;> simp only [FileTree] at ht
    obtain ⟨h1, h2, h3, h4, h5, -, h6, -⟩ := ht
    rcases h with h | h | h | h | h <;> simp_all

theorem buildNode_lacks (n c i p a ch) (h : LacksKey (.mk n c i p a ch)) :
    buildNode (.mk n c i p a ch) = .error .keyError := by
  simp only [LacksKey] at h
  rcases n with _ | n
  · simp [buildNode]
  rcases c with _ | c
  · simp [buildNode]
  rcases i with _ | i
  · simp [buildNode]
  rcases p with _ | p
  · simp [buildNode]
  rcases a with _ | a
  · simp [buildNode]
  simp at h

theorem buildNode_iff (j : JNode) : (∀ t, buildNode j = .ok t ↔ FileTree j t) ∧
    ∀ e, buildNode j = .error e ↔ RefusedWith j e := by
  induction j using JNode.induct with
  | h n c i p a ch ih =>
    by_cases hl : LacksKey (.mk n c i p a ch)
    · have hb := buildNode_lacks n c i p a ch hl
      refine ⟨fun t => ?_, fun e => ?_⟩
      · constructor
        · intro h; rw [hb] at h; cases h
        · intro h; exact absurd h (fileTree_lacks n c i p a ch t hl)
      · rw [hb]
        cases ch <;> simp only [RefusedWith, hl, true_and, not_true_eq_false, false_and, or_false] <;>
          exact ⟨fun h => by cases h; rfl, fun h => by rw [h]⟩
    · have hl' := hl
      simp only [LacksKey, not_or] at hl'
      obtain ⟨hn, hc, hi, hp, ha⟩ := hl'
      obtain ⟨n, rfl⟩ := Option.ne_none_iff_exists'.1 hn
      obtain ⟨c, rfl⟩ := Option.ne_none_iff_exists'.1 hc
      obtain ⟨i, rfl⟩ := Option.ne_none_iff_exists'.1 hi
      obtain ⟨p, rfl⟩ := Option.ne_none_iff_exists'.1 hp
      obtain ⟨a, rfl⟩ := Option.ne_none_iff_exists'.1 ha
      by_cases hae : a = []
      · subst hae
        have noleaf : ∀ act i' p' h', ¬ FileTree (.mk (some n) (some c) (some i) (some p) (some []) ch)
            (.leaf act i' p' h') := by
          intro act i' p' h' ht
          cases ch <;> simp [FileTree] at ht
        cases ch with
        | none =>
          refine ⟨fun t => ?_, fun e => ?_⟩
          · constructor
            · intro h; simp [buildNode] at h
            · intro h
              cases t with
              | leaf => exact absurd h (noleaf _ _ _ _)
              | comb => simp [FileTree] at h
          · simp only [buildNode, RefusedWith, hl, false_and, not_false_eq_true, true_and, false_or, ne_eq,
              not_true_eq_false, or_false, if_false]
            exact ⟨fun h => by cases h; rfl, fun h => by rw [h]⟩
        | some cs =>
          obtain ⟨hts, hes⟩ := buildNodes_iff cs (ih cs rfl)
          have hbn : buildNode (.mk (some n) (some c) (some i) (some p) (some []) (some cs)) =
              (buildNodes cs >>= fun built => combinationOf c >>= fun k => mkComb k built (some i) p n) := by
            simp [buildNode]
          rw [hbn]
          cases hb : buildNodes cs with
          | error e =>
            have hno : ∀ ts, ¬ FileTrees cs ts := fun ts h => by
              rw [(hts ts).2 h] at hb; cases hb
            refine ⟨fun t => ?_, fun e' => ?_⟩
            · constructor
              · intro h; simp [bind, Except.bind] at h
              · intro h
                cases t with
                | leaf => exact absurd h (noleaf _ _ _ _)
                | comb =>
                  simp only [FileTree] at h
                  exact absurd h.2.2.2.2.2.2.2.1 (hno _)
            · have hno' : ¬ ∃ ts, FileTrees cs ts := fun ⟨ts, h⟩ => hno ts h
              simp only [RefusedWith, hl, false_and, not_false_eq_true, true_and, false_or, ne_eq,
                not_true_eq_false, or_false, hno', ← hes e', hb, bind, Except.bind]
              constructor <;> (intro h; cases h; rfl)
          | ok ts =>
            have htt := (hts ts).1 hb
            have huniq : ∀ ts', FileTrees cs ts' → ts' = ts := fun ts' h => by
              have := (hts ts').2 h
              rw [hb] at this; cases this; rfl
            have hnoe : ∀ e, ¬ AnyRefusedWith cs e := fun e h => by
              rw [(hes e).2 h] at hb; cases hb
            have hlen := fileTrees_length cs ts htt
            have hemp : cs = [] ↔ ts = [] := by
              rw [← List.length_eq_zero_iff, ← List.length_eq_zero_iff, hlen]
            have hex : ∃ ts, FileTrees cs ts := ⟨ts, htt⟩
            cases hk : combinationOf c with
            | error e =>
              obtain ⟨hck, rfl⟩ := (combinationOf_error_iff c e).1 hk
              refine ⟨fun t => ?_, fun e' => ?_⟩
              · constructor
                · intro h; simp [bind, Except.bind, hk] at h
                · intro h
                  cases t with
                  | leaf => exact absurd h (noleaf _ _ _ _)
                  | comb k =>
                    simp only [FileTree] at h
                    exact absurd (Option.some.inj h.2.1) (hck k)
              · have h1 : ¬ c = some "Alternative" := hck .alternative
                have h2 : ∀ k : Kind, ¬ (some c = some (some k.str)) := fun k h => hck k (Option.some.inj h)
                simp only [RefusedWith, hl, false_and, not_false_eq_true, true_and, false_or, ne_eq,
                  not_true_eq_false, or_false, hex, hnoe e', bind, Except.bind, hk]
                constructor
                · intro h; cases h; exact Or.inl ⟨h2, rfl⟩
                · rintro (⟨_, rfl⟩ | ⟨h, _⟩)
                  · rfl
                  · exact absurd (Option.some.inj h) h1
            | ok k =>
              have hck := (combinationOf_ok_iff c k).1 hk
              subst hck
              have hkinj : ∀ k' : Kind, k.str = k'.str → k' = k := by
                intro k' h
                cases k <;> cases k' <;> first | rfl | (exfalso; revert h; decide)
              rcases mkComb_cases k ts (some i) p n with ⟨rfl, rfl, hm⟩ | ⟨hne, hm⟩
              · refine ⟨fun t => ?_, fun e' => ?_⟩
                · constructor
                  · intro h; simp [bind, Except.bind, hk, hm] at h
                  · intro h
                    cases t with
                    | leaf => exact absurd h (noleaf _ _ _ _)
                    | comb k' =>
                      simp only [FileTree] at h
                      obtain ⟨-, h2, -, -, -, -, -, h8, h9, -⟩ := h
                      have := hkinj k' (Option.some.inj (Option.some.inj h2))
                      exact absurd (huniq _ h8) (h9 this).1
                · have : cs = [] := hemp.2 rfl
                  simp only [RefusedWith, hl, false_and, not_false_eq_true, true_and, false_or, ne_eq,
                    not_true_eq_false, or_false, hex, hnoe e', bind, Except.bind, hk, hm]
                  constructor
                  · intro h; cases h; exact Or.inr ⟨rfl, this, rfl⟩
                  · rintro (⟨h, _⟩ | ⟨_, _, rfl⟩)
                    · exact absurd rfl (h .alternative)
                    · rfl
              · refine ⟨fun t => ?_, fun e' => ?_⟩
                · simp only [bind, Except.bind, hk, hm]
                  constructor
                  · intro h
                    cases h
                    rw [FileTree]
                    refine ⟨rfl, rfl, rfl, by simp, rfl, rfl, rfl, htt, fun hka => ⟨hne hka, by simp [hka]⟩,
                      fun hka => by simp [hka]⟩
                  · intro h
                    cases t with
                    | leaf => exact absurd h (noleaf _ _ _ _)
                    | comb k' cs' i' p' n' h' pr' =>
                      simp only [FileTree] at h
                      obtain ⟨h1, h2, h3, -, h5, h6, -, h8, h9, h10⟩ := h
                      have e1 := hkinj k' (Option.some.inj (Option.some.inj h2))
                      have e2 := huniq _ h8
                      cases h1; cases h5
                      subst e1 e2 h3 h6
                      by_cases hka : k' = .alternative
                      · rw [(h9 hka).2, if_pos hka]
                      · rw [h10 hka, if_neg hka]
                · simp only [RefusedWith, hl, false_and, not_false_eq_true, true_and, false_or, ne_eq,
                    not_true_eq_false, or_false, hex, hnoe e', bind, Except.bind, hk, hm]
                  constructor
                  · intro h; cases h
                  · rintro (⟨h, _⟩ | ⟨h, h', _⟩)
                    · exact absurd rfl (h k)
                    · have hka : k = .alternative :=
                        (hkinj .alternative (Option.some.inj (Option.some.inj h))).symm
                      exact absurd (hemp.1 h') (hne hka)
      · have hbn : buildNode (.mk (some n) (some c) (some i) (some p) (some a) ch) = buildLeaf n i p a := by
          cases ch <;> simp [buildNode, hae]
        rw [hbn]
        have hsa : ¬ (some a = some []) := fun h => hae (Option.some.inj h)
        refine ⟨fun t => ?_, fun e => ?_⟩
        · rw [buildLeaf_ok_iff]
          constructor
          · rintro ⟨ag, pre, post, rfl, h1, h2, h3⟩
            cases ch <;> rw [FileTree] <;>
              exact ⟨rfl, by simp, rfl, by simp, rfl, rfl, a, rfl, pre, post, h1, h2, h3⟩
          · intro h
            cases t with
            | leaf act i' p' h' =>
              have h0 : some n = some act.name ∧ (some c : Option (Option String)) ≠ none ∧ some i = i' ∧
                  some i ≠ none ∧ some p = some p' ∧ h' = false ∧
                  ∃ as, some a = some as ∧ ∃ pre post, as = pre ++ act.agent :: post ∧ act.agent ≠ "highlighted" ∧
                    ∀ x ∈ pre, x = "highlighted" := by
                cases ch <;> simpa only [FileTree] using h
              obtain ⟨h1, -, h3, -, h5, h6, as, h7, pre, post, h8, h9, h10⟩ := h0
              cases h7
              refine ⟨act.agent, pre, post, ?_, h8, h9, h10⟩
              cases act
              cases h1; cases h5; subst h3 h6
              rfl
            | comb =>
              cases ch <;> simp only [FileTree] at h
              exact absurd h.2.2.2.2.2.2.1 hsa
        · rw [buildLeaf_error_iff]
          have key : ((∀ as, some a = some as → ∀ x ∈ as, x = "highlighted") ∧ e = .indexError) ↔
              ((∀ x ∈ a, x = "highlighted") ∧ e = .indexError) :=
            ⟨fun ⟨h, h'⟩ => ⟨h a rfl, h'⟩, fun ⟨h, h'⟩ => ⟨fun as has => by cases has; exact h, h'⟩⟩
          cases ch <;> simp only [RefusedWith, hl, false_and, not_false_eq_true, true_and, false_or, ne_eq, hsa,
            or_false] <;> exact key.symm

/-- **C123.**  `json_to_htm` returns a task exactly for the files that describe a tree, and then the task of that tree. -/
theorem C123_reads (files : String → TaskFile) (path : String) (r : Option (Htm BaseAction)) :
    jsonToHtm files path = .ok r ↔ ∃ j t, files path = .nodes j ∧ FileTree j t ∧ r = some t := by
  unfold jsonToHtm
  cases hf : files path with
  | nodes j =>
    cases hb : buildNode j with
    | ok t =>
      simp only [hb]
      constructor
      · intro h
        cases h
        exact ⟨j, t, rfl, ((buildNode_iff j).1 t).1 hb, rfl⟩
      · rintro ⟨j', t', h1, h2, rfl⟩
        cases h1
        have := ((buildNode_iff j).1 t').2 h2
        rw [hb] at this
        cases this
        rfl
    | error e =>
      simp only [hb]
      constructor
      · intro h; cases h
      · rintro ⟨j', t', h1, h2, rfl⟩
        cases h1
        rw [((buildNode_iff j).1 t').2 h2] at hb
        cases hb
  | _ => simp

/-- **C123.**  Every other file is refused: `OSError` if there is none, `ValueError` if it is not JSON, `KeyError` without
`nodes`, `TypeError` when `nodes` is null, and otherwise with the error of the first node that has one. -/
theorem C123_refuses (files : String → TaskFile) (path : String) (e : PyErr) :
    jsonToHtm files path = .error e ↔
      (files path = .missing ∧ e = .osError) ∨ (files path = .malformed ∧ e = .valueError) ∨
      (files path = .noNodes ∧ e = .keyError) ∨ (files path = .nullNodes ∧ e = .typeError) ∨
      ∃ j, files path = .nodes j ∧ RefusedWith j e := by
  unfold jsonToHtm
  cases hf : files path with
  | nodes j =>
    simp only [reduceCtorEq, false_and, TaskFile.nodes.injEq, exists_eq_left', false_or, ← (buildNode_iff j).2 e]
    cases hb : buildNode j with
    | ok t => simp
    | error e' => simp
  | _ => simp [eq_comm]

/-- **C123.**  A node has at most one tree, and has one or an error but not both. -/
theorem C123_determined (j : JNode) :
    (∀ t t', FileTree j t → FileTree j t' → t = t') ∧ (∀ e e', RefusedWith j e → RefusedWith j e' → e = e') ∧
    ((∃ t, FileTree j t) ↔ ¬ ∃ e, RefusedWith j e) := by
  obtain ⟨h1, h2⟩ := buildNode_iff j
  refine ⟨fun t t' h h' => ?_, fun e e' h h' => ?_, ?_⟩
  · have a := (h1 t).2 h
    rw [(h1 t').2 h'] at a
    cases a; rfl
  · have a := (h2 e).2 h
    rw [(h2 e').2 h'] at a
    cases a; rfl
  · cases hb : buildNode j with
    | ok t =>
      refine ⟨fun _ ⟨e, he⟩ => ?_, fun _ => ⟨t, (h1 t).1 hb⟩⟩
      rw [(h2 e).2 he] at hb; cases hb
    | error e =>
      refine ⟨fun ⟨t, ht⟩ => ?_, fun h => absurd ⟨e, (h2 e).1 hb⟩ h⟩
      rw [(h1 t).2 ht] at hb; cases hb

theorem buildNode_toJson (d : DNode) : buildNode d.toJson = buildHtm d := by
  induction d using DNode.induct with
  | h n i p c a ch ih =>
    cases ch with
    | none => simp [DNode.toJson, buildNode, buildHtm]
    | some cs =>
      have key : buildNodes (DNode.toJsons cs) = buildHtmL cs := by
        have ih' := ih cs rfl
        clear ih
        induction cs with
        | nil => rfl
        | cons d ds ihd =>
          simp only [DNode.toJsons, buildNodes, buildHtmL, ih' d (by simp), ihd (fun d hd => ih' d (by simp [hd]))]
      simp [DNode.toJson, buildNode, buildHtm, key]

/-- **C123.**  A file made from `as_dictionary` is never read back if the task is empty (`TypeError`), has a leaf or has a
highlighted node (`KeyError` or `IndexError`); the only tasks that are read back are trees of plain combinations. -/
theorem C123_written {A : Type} (ops : ActOps A) (root : Option (Htm A)) (hb : ∀ t, root = some t → Built t)
    (name : Option String) (files : String → TaskFile) (path : String)
    (hf : files path = taskFileOf (taskAsDictionary ops root name).2) :
    (root = none → jsonToHtm files path = .error .typeError) ∧
    ((∃ r, jsonToHtm files path = .ok r) ↔
      ∃ t, root = some t ∧ ∀ d ∈ nodes t, d.kind ≠ none ∧ d.highlighted = false) := by
  cases root with
  | none =>
    have : jsonToHtm files path = .error .typeError := by
      simp [jsonToHtm, hf, taskAsDictionary, taskFileOf]
    exact ⟨fun _ => this, by simp [this]⟩
  | some t =>
    refine ⟨by simp, ?_⟩
    have h := (C14_false ops t (hb t rfl)).2
    have hf' : files path = .nodes (t.asDict ops none 0).1.toJson := by
      rw [hf]; rfl
    constructor
    · rintro ⟨r, hr⟩
      refine ⟨t, rfl, h.1 ?_⟩
      rw [← buildNode_toJson]
      cases hbn : buildNode (t.asDict ops none 0).1.toJson with
      | ok t' => exact ⟨t', rfl⟩
      | error e => simp [jsonToHtm, hf', hbn] at hr
    · rintro ⟨t', ht, h'⟩
      cases ht
      obtain ⟨t'', h''⟩ := h.2 h'
      rw [← buildNode_toJson] at h''
      exact ⟨some t'', by simp [jsonToHtm, hf', h'']⟩

theorem described_of_ok (d : DNode) : ∀ t, buildHtm d = .ok t → Described d := by
  induction d using DNode.induct with
  | h n i p c a ch ih =>
    intro t ht
    by_cases hae : a = []
    · subst hae
      cases ch with
      | none => simp [buildHtm] at ht
      | some cs =>
        have hbn : buildHtm (.mk n i p c [] (some cs)) =
            (buildHtmL cs >>= fun built => combinationOf c >>= fun k => mkComb k built (some i) p n) := by
          simp [buildHtm]
        rw [hbn] at ht
        cases hb : buildHtmL cs with
        | error e => simp [hb, bind, Except.bind] at ht
        | ok ts =>
          have key : DescribedL cs ∧ ts.length = cs.length := by
            have ih' := ih cs rfl
            clear ih ht hbn
            induction cs generalizing ts with
            | nil => cases hb; simp [DescribedL]
            | cons d ds ihd =>
              simp only [buildHtmL, bind, Except.bind, pure, Except.pure] at hb
              cases hd : buildHtm d with
              | error e => simp [hd] at hb
              | ok t1 =>
                cases hds : buildHtmL ds with
                | error e => simp [hd, hds] at hb
                | ok ts1 =>
                  simp only [hd, hds] at hb
                  cases hb
                  obtain ⟨h1, h2⟩ := ihd ts1 hds (fun d hd => ih' d (by simp [hd]))
                  exact ⟨by simp only [DescribedL]; exact ⟨ih' d (by simp) t1 hd, h1⟩, by simp [h2]⟩
          cases hk : combinationOf c with
          | error e => simp [hb, hk, bind, Except.bind] at ht
          | ok k =>
            have hck := (combinationOf_ok_iff c k).1 hk
            subst hck
            rw [Described]
            refine Or.inr ⟨rfl, key.1, ?_⟩
            rcases mkComb_cases k ts (some i) p n with ⟨_, _, hm⟩ | ⟨hne, _⟩
            · simp [hb, hk, hm, bind, Except.bind] at ht
            · cases k with
              | sequential => exact Or.inl rfl
              | parallel => exact Or.inr (Or.inl rfl)
              | alternative =>
                refine Or.inr (Or.inr ⟨rfl, ?_⟩)
                rintro rfl
                exact hne rfl (List.length_eq_zero_iff.1 (by simpa using key.2))
    · have hbn : buildHtm (.mk n i p c a ch) = buildLeaf n i p a := by
        cases ch <;> simp [buildHtm, hae]
      rw [hbn, buildLeaf_ok_iff] at ht
      obtain ⟨ag, pre, post, -, h1, h2, -⟩ := ht
      have : ∃ x ∈ a, x ≠ "highlighted" := ⟨ag, by simp [h1], h2⟩
      cases ch <;> rw [Described]
      · exact this
      · exact Or.inl this

/-- **C14.**  The descriptions on which `build_htm` returns a tree are exactly the well-formed ones, and the tree is the one
described. -/
theorem C14_exact (d : DNode) :
    ((∃ t, buildHtm d = .ok t) ↔ Described d) ∧ ∀ t, buildHtm d = .ok t → Describes d t := by
  refine ⟨⟨fun ⟨t, h⟩ => described_of_ok d t h, fun h => ?_⟩, fun t h => ?_⟩
  · obtain ⟨t, h1, _⟩ := C14_describes_partial d h
    exact ⟨t, h1⟩
  · obtain ⟨t', h1, h2⟩ := C14_describes_partial d (described_of_ok d t h)
    rw [h] at h1
    cases h1
    exact h2

theorem fileTree_built (j : JNode) : ∀ t, FileTree j t → Built t := by
  induction j using JNode.induct with
  | h n c i p a ch ih =>
    intro t ht
    cases t with
    | leaf => simp [Built]
    | comb k cs i' p' n' h' pr =>
      cases ch with
      | none => simp [FileTree] at ht
      | some ds =>
        rw [FileTree] at ht
        obtain ⟨-, -, -, -, -, -, -, h8, h9, -⟩ := ht
        have key : BuiltL cs := by
          have ih' := ih ds rfl
          clear ih h9
          induction ds generalizing cs with
          | nil => cases cs <;> simp [FileTrees, BuiltL] at h8 ⊢
          | cons d ds ihd =>
            cases cs with
            | nil => simp [FileTrees] at h8
            | cons c cs =>
              simp only [FileTrees] at h8
              simp only [BuiltL]
              exact ⟨ih' d (by simp) c h8.1, ihd cs h8.2 (fun d hd => ih' d (by simp [hd]))⟩
        rw [Built]
        refine ⟨fun hk => ⟨(h9 hk).1, _, (h9 hk).2, ?_⟩, key⟩
        have hn : cs.length ≠ 0 := by simpa using (h9 hk).1
        simpa using uniform_distrib cs.length hn

theorem deepCopyL_base (fmt : String → String) (cs : List (Htm BaseAction)) (hb : ∀ c ∈ cs, Built c)
    (ih : ∀ c ∈ cs, leaves c ≠ [] → c.deepCopy BaseAction.ops fmt = .error .attributeError) (hl : leavesL cs ≠ []) :
    Htm.deepCopyL BaseAction.ops fmt cs = .error .attributeError := by
  induction cs with
  | nil => simp [leavesL] at hl
  | cons c cs ihc =>
    by_cases hc : leaves c = []
    · obtain ⟨c', h1, -⟩ := deepCopy_spec BaseAction.ops fmt c (hb c (by simp)) (fun a ha => by simp [hc] at ha)
      have := ihc (fun d hd => hb d (by simp [hd])) (fun d hd => ih d (by simp [hd])) (by simpa [leavesL, hc] using hl)
      simp [Htm.deepCopyL, h1, this, bind, Except.bind]
    · simp [Htm.deepCopyL, ih c (by simp) hc, bind, Except.bind]

theorem deepCopy_base (fmt : String → String) (t : Htm BaseAction) (hb : Built t) (hl : leaves t ≠ []) :
    t.deepCopy BaseAction.ops fmt = .error .attributeError := by
  induction t using Htm.induct with
  | hleaf a i p h => simp [Htm.deepCopy, BaseAction.ops, bind, Except.bind]
  | hcomb k cs i p n h pr ih =>
    rw [Built] at hb
    have hb' := (builtL_iff cs).1 hb.2
    have := deepCopyL_base fmt cs hb' (fun c hc hlc => ih c hc (hb' c hc) hlc) (by simpa [leaves] using hl)
    simp [Htm.deepCopy, this, bind, Except.bind]

theorem permsN_head {α : Type} : ∀ l : List α, ∃ r, permsN l.length l = l :: r
  | [] => ⟨[], rfl⟩
  | x :: l => by
      obtain ⟨r, h⟩ := permsN_head l
      simp [permsN, picks, h]

/-- **C123.**  The tasks that are read have actions that cannot be copied: copying such a task, or making the orders of one
of its parallel nodes, raises `AttributeError` as soon as there is a leaf below. -/
theorem C123_copies (files : String → TaskFile) (path : String) (t : Htm BaseAction)
    (h : jsonToHtm files path = .ok (some t)) (fmt : String → String) :
    (leaves t ≠ [] → t.deepCopy BaseAction.ops fmt = .error .attributeError) ∧
    (leaves t = [] → ∃ t', t.deepCopy BaseAction.ops fmt = .ok t' ∧ CopyOf BaseAction.ops fmt t t') ∧
    ∀ k cs i p n hl pr, t = .comb k cs i p n hl pr → leavesL cs ≠ [] →
      toAlternative BaseAction.ops cs n hl = .error .attributeError := by
  obtain ⟨j, t', -, ht, hr⟩ := (C123_reads files path _).1 h
  cases hr
  have hb := fileTree_built j t ht
  refine ⟨deepCopy_base fmt t hb, fun hl => ?_, ?_⟩
  · obtain ⟨t', h1, h2, -⟩ := deepCopy_spec BaseAction.ops fmt t hb (fun a ha => by simp [hl] at ha)
    exact ⟨t', h1, h2⟩
  · rintro k cs i p n hl pr rfl hne
    rw [Built] at hb
    have hb' := (builtL_iff cs).1 hb.2
    obtain ⟨r, hr⟩ := permsN_head cs
    have := deepCopyL_base (orderFmt 0) cs hb' (fun c hc hlc => deepCopy_base _ c (hb' c hc) hlc) hne
    simp [toAlternative, permutations, hr, orderSeq, this, List.mapM_cons, bind, Except.bind]

/-! Non-vacuity. -/

/-- A small file that is read.  (The files of `visualization/htm/json` are not: their leaves have neither attributes nor
children, refused with `KeyError` by `RefusedWith`.) -/
def chairFile : JNode :=
  .mk (some "chair") (some (some "Alternative")) (some 0) (some none) (some [])
    (some [.mk (some "leg") (some none) (some 1) (some (some 0)) (some ["highlighted", "human"]) none,
      .mk (some "back") (some (some "Sequential")) (some 2) (some (some 0)) (some []) (some [])])

example : FileTree chairFile (.comb .alternative
    [.leaf ⟨"leg", "human"⟩ (some 1) (some 0) false, .comb .sequential [] (some 2) (some 0) "back" false none]
    (some 0) none "chair" false (some [1 / 2, 1 / 2])) := by
  rw [← (buildNode_iff chairFile).1]
  simp [chairFile, buildNode, buildNodes, buildLeaf, combinationOf, combinationClass, mkComb, setProba, bind, Except.bind,
    pure, Except.pure, List.replicate]

/-- The error of the first child comes before the one of its parent. -/
example : RefusedWith (.mk (some "t") (some (some "Loop")) (some 0) (some none) (some [])
    (some [.mk (some "a") (some none) (some 1) (some (some 0)) (some ["highlighted"]) none])) .indexError := by
  rw [← (buildNode_iff _).2]
  simp [buildNode, buildNodes, buildLeaf, bind, Except.bind]

/-- The file is read as a task with a leaf, which is the case of `C123_copies` in which nothing can be copied. -/
example : ∃ t, jsonToHtm (fun _ => .nodes chairFile) "chair.json" = .ok (some t) ∧ leaves t ≠ [] ∧
    t.deepCopy BaseAction.ops id = .error .attributeError := by
  have h : jsonToHtm (fun _ => .nodes chairFile) "chair.json" = .ok (some (.comb .alternative
    [.leaf ⟨"leg", "human"⟩ (some 1) (some 0) false, .comb .sequential [] (some 2) (some 0) "back" false none]
    (some 0) none "chair" false (some [1 / 2, 1 / 2]))) := by
    simp [jsonToHtm, chairFile, buildNode, buildNodes, buildLeaf, combinationOf, combinationClass, mkComb, setProba, bind,
      Except.bind, pure, Except.pure, List.replicate]
  have hl : leaves (.comb .alternative
    [.leaf ⟨"leg", "human"⟩ (some 1) (some 0) false, .comb .sequential [] (some 2) (some 0) "back" false none]
    (some 0) none "chair" false (some [1 / 2, 1 / 2]) : Htm BaseAction) ≠ [] := by
    simp [leaves, leavesL]
  exact ⟨_, h, hl, (C123_copies _ _ _ h id).1 hl⟩

end Verif
