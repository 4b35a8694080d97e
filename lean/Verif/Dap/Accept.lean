import Verif.Dap.Conform
import Verif.Dap.Reads
import Verif.Dap.Exact
import Verif.Dap.Unknown
/-!
# Documents that conform to the schema are unpacked (proofs only)
-/

namespace Verif.Dap.Schema
open Verif Verif.Dap

mutual
/-- The key occurs nowhere in the document. -/
def noKey (k : Str) : Json → Bool
  | .arr l => noKeyL k l
  | .obj l => noKeyO k l
  | _ => true
/-- Elements. -/
def noKeyL (k : Str) : List Json → Bool
  | [] => true
  | x :: xs => noKey k x && noKeyL k xs
/-- Members. -/
def noKeyO (k : Str) : List (Str × Json) → Bool
  | [] => true
  | (k', v) :: xs => decide (k' ≠ k) && noKey k v && noKeyO k xs
end

theorem noKeyL_mem {k : Str} {l : List Json} (h : noKeyL k l = true) : ∀ x ∈ l, noKey k x = true := by
  induction l with
  | nil => simp
  | cons y l ih =>
    simp only [noKeyL, Bool.and_eq_true] at h
    intro x hx
    rcases List.mem_cons.1 hx with rfl | hx
    · exact h.1
    · exact ih h.2 x hx

theorem noKeyO_mem {k : Str} {l : List (Str × Json)} (h : noKeyO k l = true) : ∀ kv ∈ l, kv.1 ≠ k ∧ noKey k kv.2 = true := by
  induction l with
  | nil => simp
  | cons y l ih =>
    obtain ⟨k', v⟩ := y
    simp only [noKeyO, Bool.and_eq_true, decide_eq_true_eq] at h
    intro x hx
    rcases List.mem_cons.1 hx with rfl | hx
    · exact ⟨h.1.1, h.1.2⟩
    · exact ih h.2 x hx

/-- None of the keys occurs in the document. -/
def Clean (ks : List Str) (j : Json) : Prop := ∀ k ∈ ks, noKey k j = true

/-- Schemas without references to other objects. -/
def plainSch : Sch → Bool
  | .obj _ => false
  | .orNull s => plainSch s
  | .alt s t => plainSch s && plainSch t
  | .arr s => plainSch s
  | _ => true

/-- The unpacker accepts every document of that schema; objects only of the classes `rs`. -/
def unpFits (rs : List Cls) (u : Unp) (s : Option Sch) : Bool :=
  match u with
  | .ident => (match s with
    | some s => plainSch s
    | none => true)
  | .enum e => (match s with
    | some (.oneOf ws) => ws.all fun w => decide (w ∈ e.values)
    | _ => false)
  | .cls c => decide (c ∈ rs) && (s == some (ref c) || s == some (.arr (ref c)))

/-- The type of the member with that key. -/
def schOf (ms : List Member) (k : Str) : Option Sch := (ms.find? fun m => m.key == k).map (·.sch)

/-- No document of that schema is null. -/
def solid : Sch → Bool
  | .any => false
  | .orNull _ => false
  | .alt _ _ => false
  | _ => true

/-- Every document without the keys `ks` that conforms to the class's schema is unpacked. -/
def accOk (rs : List Cls) (ks : List Str) (c : Cls) : Bool :=
  (c.dap.all fun (k, e) => match e with
    | .attr a => decide (k ∈ ks) || unpFits rs (c.fieldUnp a) (schOf (topMembers c) k)
    | .sub sm => schOf (topMembers c) k == some (.obj (.body c)) &&
        sm.all fun (k', a) => decide (k' ∈ ks) || unpFits rs (c.fieldUnp a) (schOf (bodyMembers c) k')) &&
  (c.fields.all fun f => !f.init || f.dflt.isSome ||
    (topMembers c).any fun m => m.required && (match Dict.get? c.dap m.key with
      | some (.attr a) => a == f.name && solid m.sch
      | some (.sub sm) => (bodyMembers c).any fun m' => m'.required && solid m'.sch && Dict.get? sm m'.key == some f.name
      | none => false))

theorem solid_nonnull {strict : Bool} {s : Sch} (h : solid s = true) : ¬ Valid strict s .null := by
  intro hv
  cases hv <;> simp [solid] at h

theorem schOf_mem {ms : List Member} {k : Str} {s : Sch} (h : schOf ms k = some s) : ∃ m ∈ ms, m.key = k ∧ m.sch = s := by
  unfold schOf at h
  cases hf : ms.find? (fun m => m.key == k) with
  | none => simp [hf] at h
  | some m =>
    simp only [hf, Option.map_some, Option.some.injEq] at h
    exact ⟨m, List.mem_of_find?_eq_some hf, by simpa using List.find?_some hf, h⟩

/-- What `rec` does on conforming documents of depth below `D`. -/
def RecOk (strict : Bool) (cs rs : List Cls) (ks : List Str) (D : Nat) (rec : Cls → Json → Except PyErr Val) : Prop :=
  ∀ c ∈ cs, ∀ j, Valid strict (ref c) j → Clean ks j → depth j < D → ∃ x, rec c j = .ok x ∧ (c ∈ rs → Reads (ref c) j x)

theorem plain_reads {strict : Bool} {s : Sch} {j : Json} (h : Valid strict s j) : plainSch s = true → Reads s j (ofJson j) := by
  induction h with
  | any j => intro _; exact .any j
  | int i => intro _; exact .int i
  | str i => intro _; exact .str i
  | bool i => intro _; exact .bool i
  | oneOf vals s h => intro _; exact .word vals s
  | null s => intro _; exact .null s
  | nonNull s j h ih => intro hp; exact .nonNull s j _ (ih hp)
  | altL s t j h ih => intro hp; simp only [plainSch, Bool.and_eq_true] at hp; exact .altL s t j _ (ih hp.1)
  | altR s t j h ih => intro hp; simp only [plainSch, Bool.and_eq_true] at hp; exact .altR s t j _ (ih hp.2)
  | map s l h ih => intro _; exact .map s l
  | obj d l => intro hp; simp [plainSch] at hp
  | arr s l h ih =>
    intro hp
    simp only [plainSch] at hp
    have key : ∀ l' : List Json, (∀ x ∈ l', x ∈ l) → Reads (.arr s) (.arr l') (.list (ofJsonL l')) := by
      intro l'
      induction l' with
      | nil => intro _; exact .nil s
      | cons y l' ih' =>
        intro hs
        exact .cons s y _ _ _ (ih y (hs y (List.mem_cons_self ..)) hp) (ih' fun z hz => hs z (List.mem_cons_of_mem _ hz))
    exact key l (fun _ h => h)

theorem fieldVal_ok {strict : Bool} {cs rs : List Cls} {ks : List Str} {D : Nat} {rec : Cls → Json → Except PyErr Val}
    (hsub : ∀ c ∈ rs, c ∈ cs) (hr : RecOk strict cs rs ks D rec)
    {u : Unp} {s : Option Sch} (hu : unpFits rs u s = true) {v : Json} (hv : ∀ s', s = some s' → Valid strict s' v)
    (hk : Clean ks v) (hd : depth v < D) : ∃ x, fieldVal rec u v = .ok x ∧ ∀ s', s = some s' → Reads s' v x := by
  cases u with
  | ident =>
    refine ⟨_, fieldVal_ident rec v, fun s' hs => ?_⟩
    subst hs
    exact plain_reads (hv s' rfl) hu
  | enum e =>
    cases s with
    | none => simp [unpFits] at hu
    | some s =>
      cases s <;> simp [unpFits] at hu
      rename_i ws
      have := hv _ rfl
      cases this with
      | oneOf _ x hx => exact ⟨.enum e x, by simp [fieldVal, applyUnp, hu x hx], fun s' hs => by cases hs; exact .member ws e x⟩
  | cls c =>
    simp only [unpFits, Bool.and_eq_true, Bool.or_eq_true, decide_eq_true_eq, beq_iff_eq] at hu
    obtain ⟨hc, rfl | rfl⟩ := hu
    · have hval := hv _ rfl
      obtain ⟨x, hx, hrd⟩ := hr c (hsub c hc) v hval hk hd
      refine ⟨x, ?_, fun s' hs => by cases hs; exact hrd hc⟩
      cases hval with
      | obj d l => simp [fieldVal, applyUnp, hx]
    · have hval := hv _ rfl
      cases hval with
      | arr _ l hl =>
        have key : ∀ l' : List Json, (∀ x ∈ l', x ∈ l) → ∃ xs, applyUnpL rec (.cls c) l' = .ok xs ∧ Reads (.arr (ref c)) (.arr l') (.list xs) := by
          intro l'
          induction l' with
          | nil => intro _; exact ⟨[], rfl, .nil _⟩
          | cons y l' ih =>
            intro hss
            have hy := hss y (List.mem_cons_self ..)
            obtain ⟨x, hx, hrd⟩ := hr c (hsub c hc) y (hl y hy) (fun k hkk => by
              have := hk k hkk
              simp only [noKey] at this
              exact noKeyL_mem this y hy) (by
              have := depth_mem_arr hy
              simp only [depth] at hd; omega)
            obtain ⟨xs, hxs, hrs⟩ := ih (fun z hz => hss z (List.mem_cons_of_mem _ hz))
            exact ⟨x :: xs, by simp [applyUnpL, applyUnp, hx, hxs], .cons _ _ _ _ _ (hrd hc) hrs⟩
        obtain ⟨xs, hxs, hrs⟩ := key l (fun _ h => h)
        exact ⟨.list xs, by simp [fieldVal, hxs], fun s' hs => by cases hs; exact hrs⟩

theorem isNull_iff (j : Json) : isNull j = true ↔ j = .null := by cases j <;> simp [isNull]

/-- Walking the members of a nested object: it succeeds, and afterwards an attribute has the
value of its member, or what it had before. -/
theorem walkSub_ok (rec : Cls → Json → Except PyErr Val) (c : Cls) (sm : List (Str × Str)) (l : List (Str × Json))
    (hok : ∀ kv ∈ l, ∀ a, Dict.get? sm kv.1 = some a → kv.2 ≠ .null → ∃ x, fieldVal rec (c.fieldUnp a) kv.2 = .ok x) :
    ∀ asg, ∃ asg', walkSub rec c sm l asg = .ok asg' ∧
      (∀ a, (Dict.get? asg a).isSome = true → (Dict.get? asg' a).isSome = true) ∧
      (∀ kv ∈ l, ∀ a, Dict.get? sm kv.1 = some a → kv.2 ≠ .null → (Dict.get? asg' a).isSome = true) ∧
      (∀ a, (∀ kv ∈ l, Dict.get? sm kv.1 = some a → kv.2 = .null) → Dict.get? asg' a = Dict.get? asg a) ∧
      ((l.map (·.1)).Nodup → ∀ a, (∀ k ∈ l.map (·.1), ∀ k' ∈ l.map (·.1), Dict.get? sm k = some a → Dict.get? sm k' = some a → k = k') →
        ∀ kv ∈ l, ∀ x, Dict.get? sm kv.1 = some a → kv.2 ≠ .null → fieldVal rec (c.fieldUnp a) kv.2 = .ok x → Dict.get? asg' a = some x) := by
  induction l with
  | nil => intro asg; exact ⟨asg, rfl, fun _ h => h, by simp, fun _ _ => rfl, by simp⟩
  | cons kv l ih =>
    obtain ⟨k, v⟩ := kv
    intro asg
    have ih := ih (fun kv h => hok kv (List.mem_cons_of_mem _ h))
    by_cases hn : v = .null
    · subst hn
      obtain ⟨asg', h1, h2, h3, h4, h5⟩ := ih asg
      refine ⟨asg', by simp [walkSub, isNull, h1], h2, ?_, ?_, ?_⟩
      · intro kv hkv a ha hne
        rcases List.mem_cons.1 hkv with rfl | hkv
        · exact absurd rfl hne
        · exact h3 kv hkv a ha hne
      · intro a ha; exact h4 a (fun kv hkv => ha kv (List.mem_cons_of_mem _ hkv))
      · intro hnd a hinj kv hkv x ha hne hx
        simp only [List.map_cons, List.nodup_cons] at hnd
        rcases List.mem_cons.1 hkv with rfl | hkv
        · exact absurd rfl hne
        · exact h5 hnd.2 a (fun k h k' h' => hinj k (List.mem_cons_of_mem _ h) k' (List.mem_cons_of_mem _ h')) kv hkv x ha hne hx
    · have hnull : isNull v = false := by
        cases h : isNull v with
        | true => exact absurd ((isNull_iff v).1 h) hn
        | false => rfl
      cases hg : Dict.get? sm k with
      | none =>
        obtain ⟨asg', h1, h2, h3, h4, h5⟩ := ih asg
        refine ⟨asg', by simp [walkSub, hnull, hg, h1], h2, ?_, ?_, ?_⟩
        · intro kv hkv a ha hne
          rcases List.mem_cons.1 hkv with rfl | hkv
          · rw [hg] at ha; cases ha
          · exact h3 kv hkv a ha hne
        · intro a ha; exact h4 a (fun kv hkv => ha kv (List.mem_cons_of_mem _ hkv))
        · intro hnd a hinj kv hkv x ha hne hx
          simp only [List.map_cons, List.nodup_cons] at hnd
          rcases List.mem_cons.1 hkv with rfl | hkv
          · rw [hg] at ha; cases ha
          · exact h5 hnd.2 a (fun k h k' h' => hinj k (List.mem_cons_of_mem _ h) k' (List.mem_cons_of_mem _ h')) kv hkv x ha hne hx
      | some b =>
        obtain ⟨y, hy⟩ := hok (k, v) (List.mem_cons_self ..) b hg hn
        obtain ⟨asg', h1, h2, h3, h4, h5⟩ := ih (Dict.set asg b y)
        have hset : ∀ a, Dict.get? (Dict.set asg b y) a = if b = a then some y else Dict.get? asg a := fun a => Dict.get?_set asg b a y
        refine ⟨asg', by simp [walkSub, hnull, hg, hy, h1], ?_, ?_, ?_, ?_⟩
        · intro a ha
          apply h2
          rw [hset]; split
          · rfl
          · exact ha
        · intro kv hkv a ha hne
          rcases List.mem_cons.1 hkv with rfl | hkv
          · rw [hg] at ha; cases ha
            apply h2; rw [hset]; simp
          · exact h3 kv hkv a ha hne
        · intro a ha
          have hba : b ≠ a := by
            intro e; subst e
            exact hn (ha (k, v) (List.mem_cons_self ..) hg)
          rw [h4 a (fun kv hkv => ha kv (List.mem_cons_of_mem _ hkv)), hset, if_neg hba]
        · intro hnd a hinj kv hkv x ha hne hx
          simp only [List.map_cons, List.nodup_cons] at hnd
          rcases List.mem_cons.1 hkv with rfl | hkv
          · rw [hg] at ha; cases ha
            rw [hy] at hx; cases hx
            rw [h4 b ?_, hset]
            · simp
            · intro kv hkv hkb
              exact absurd (List.mem_map.2 ⟨kv, hkv, hinj _ (List.mem_cons_of_mem _ (List.mem_map.2 ⟨kv, hkv, rfl⟩)) _ (List.mem_cons_self ..) hkb hg⟩) hnd.1
          · exact h5 hnd.2 a (fun k h k' h' => hinj k (List.mem_cons_of_mem _ h) k' (List.mem_cons_of_mem _ h')) kv hkv x ha hne hx

/-! ## The top level -/

/-- The keys mapped to attributes, and the nested mappings. -/
def topMap (m : DapMap) : List (Str × Str) := m.filterMap fun (k, e) => match e with
  | .attr a => some (k, a)
  | .sub _ => none
def subMaps (m : DapMap) : List (Str × List (Str × Str)) := m.filterMap fun (k, e) => match e with
  | .attr _ => none
  | .sub sm => some (k, sm)

theorem topMap_get (m : DapMap) (hn : (m.map (·.1)).Nodup) (k a : Str) : Dict.get? (topMap m) k = some a ↔ Dict.get? m k = some (.attr a) := by
  induction m with
  | nil => simp [topMap, Dict.get?]
  | cons e m ih =>
    obtain ⟨k', e⟩ := e
    simp only [List.map_cons, List.nodup_cons] at hn
    have ih := ih hn.2
    have hfresh : k' = k → Dict.get? (topMap m) k = none := by
      rintro rfl
      apply Dict.get?_none
      intro h
      obtain ⟨⟨k2, a2⟩, hk, rfl⟩ := List.mem_map.1 h
      obtain ⟨⟨k3, e3⟩, he, h3⟩ := List.mem_filterMap.1 hk
      cases e3 with
      | attr b => simp only [Option.some.injEq, Prod.mk.injEq] at h3; exact hn.1 (List.mem_map.2 ⟨_, he, h3.1⟩)
      | sub sm => simp at h3
    cases e with
    | attr b =>
      have : topMap ((k', .attr b) :: m) = (k', b) :: topMap m := rfl
      rw [this]
      simp only [Dict.get?]
      split
      · simp
      · exact ih
    | sub sm =>
      have : topMap ((k', .sub sm) :: m) = topMap m := rfl
      rw [this]
      simp only [Dict.get?]
      split
      · rename_i h; rw [hfresh h]; simp
      · exact ih

/-- The queue the top level leaves. -/
def queueOf (m : DapMap) (l : List (Str × Json)) : List Queued := l.filterMap fun (k, v) =>
  if isNull v then none
  else match Dict.get? m k with
    | some (.sub sm) => some (some sm, v)
    | _ => none

theorem walkTop_eq (rec : Cls → Json → Except PyErr Val) (c : Cls) (l : List (Str × Json)) (hk : ∀ kv ∈ l, kv.1 ≠ py!"__types") :
    ∀ asg q, walkTop rec c l asg q = (walkSub rec c (topMap c.dap) l asg).map fun asg' => (asg', q ++ queueOf c.dap l) := by
  induction l with
  | nil => intro asg q; simp [walkTop, walkSub, queueOf, Except.map]
  | cons kv l ih =>
    obtain ⟨k, v⟩ := kv
    have ih := ih (fun kv h => hk kv (List.mem_cons_of_mem _ h))
    have hkt : k ≠ py!"__types" := hk (k, v) (List.mem_cons_self ..)
    intro asg q
    cases hn : isNull v with
    | true => simp [walkTop, walkSub, hn, ih, queueOf]
    | false =>
      cases hg : Dict.get? c.dap k with
      | none =>
        have ht : Dict.get? (topMap c.dap) k = none := by
          cases h : Dict.get? (topMap c.dap) k with
          | none => rfl
          | some a => rw [topMap_get _ (dap_nodup c), hg] at h; cases h
        simp [walkTop, walkSub, hn, hkt, hg, ht, ih, queueOf]
      | some e =>
        cases e with
        | sub sm =>
          have ht : Dict.get? (topMap c.dap) k = none := by
            cases h : Dict.get? (topMap c.dap) k with
            | none => rfl
            | some a => rw [topMap_get _ (dap_nodup c), hg] at h; cases h
          simp [walkTop, walkSub, hn, hkt, hg, ht, ih, queueOf]
        | attr a =>
          have ht := (topMap_get _ (dap_nodup c) k a).2 hg
          simp only [walkTop, walkSub, hn, hkt, hg, ht, Bool.false_eq_true, if_false]
          cases hf : fieldVal rec (c.fieldUnp a) v with
          | error e => rfl
          | ok x => simp only [ih]; simp [queueOf, hn, hg]

/-- No class has more than one nested mapping. -/
theorem one_sub (c : Cls) : (subMaps c.dap).length ≤ 1 := by
  have : allCls.all (fun c => decide ((subMaps c.dap).length ≤ 1)) = true := by decide +kernel
  simpa using List.all_eq_true.1 this c (mem_allCls c)

theorem sub_unique {c : Cls} {k k' : Str} {sm sm' : List (Str × Str)} (h : Dict.get? c.dap k = some (.sub sm))
    (h' : Dict.get? c.dap k' = some (.sub sm')) : k = k' ∧ sm = sm' := by
  have m1 : (k, sm) ∈ subMaps c.dap := List.mem_filterMap.2 ⟨_, Dict.mem_of_get? _ _ _ h, rfl⟩
  have m2 : (k', sm') ∈ subMaps c.dap := List.mem_filterMap.2 ⟨_, Dict.mem_of_get? _ _ _ h', rfl⟩
  have := one_sub c
  cases hs : subMaps c.dap with
  | nil => rw [hs] at m1; cases m1
  | cons x xs =>
    cases xs with
    | nil =>
      rw [hs, List.mem_singleton] at m1 m2
      rw [← m1] at m2; cases m2; exact ⟨rfl, rfl⟩
    | cons y ys => rw [hs] at this; simp at this

theorem queueOf_one (c : Cls) (l : List (Str × Json)) (hn : (l.map (·.1)).Nodup) :
    (queueOf c.dap l = [] ∧ ∀ k sm v, Dict.get? c.dap k = some (.sub sm) → (k, v) ∈ l → v = .null) ∨
    ∃ k sm v, Dict.get? c.dap k = some (.sub sm) ∧ (k, v) ∈ l ∧ v ≠ .null ∧ queueOf c.dap l = [(some sm, v)] := by
  induction l with
  | nil => left; simp [queueOf]
  | cons kv l ih =>
    obtain ⟨k, v⟩ := kv
    simp only [List.map_cons, List.nodup_cons] at hn
    have skip : queueOf c.dap ((k, v) :: l) = queueOf c.dap l → (∀ sm, Dict.get? c.dap k = some (.sub sm) → v = .null) →
        (queueOf c.dap ((k, v) :: l) = [] ∧ ∀ k' sm v', Dict.get? c.dap k' = some (.sub sm) → (k', v') ∈ (k, v) :: l → v' = .null) ∨
        ∃ k' sm v', Dict.get? c.dap k' = some (.sub sm) ∧ (k', v') ∈ (k, v) :: l ∧ v' ≠ .null ∧ queueOf c.dap ((k, v) :: l) = [(some sm, v')] := by
      intro hq hnull
      rw [hq]
      rcases ih hn.2 with ⟨h1, h2⟩ | ⟨k1, sm1, v1, h1, h2, h3, h4⟩
      · left
        refine ⟨h1, fun k' sm v' hg hm => ?_⟩
        rcases List.mem_cons.1 hm with e | hm
        · cases e; exact hnull sm hg
        · exact h2 k' sm v' hg hm
      · right; exact ⟨k1, sm1, v1, h1, List.mem_cons_of_mem _ h2, h3, h4⟩
    cases hnl : isNull v with
    | true =>
      apply skip
      · simp [queueOf, hnl]
      · intro _ _; exact (isNull_iff v).1 hnl
    | false =>
      cases hg : Dict.get? c.dap k with
      | none => apply skip; (simp [queueOf, hg]); (intro sm h; rw [hg] at h; cases h)
      | some e =>
        cases e with
        | attr a => apply skip; (simp [queueOf, hg]); (intro sm h; rw [hg] at h; cases h)
        | sub sm =>
          right
          refine ⟨k, sm, v, hg, List.mem_cons_self .., ?_, ?_⟩
          · rintro rfl; simp [isNull] at hnl
          · have hq : queueOf c.dap ((k, v) :: l) = (some sm, v) :: queueOf c.dap l := by simp [queueOf, hnl, hg]
            rw [hq]
            rcases ih hn.2 with ⟨h1, _⟩ | ⟨k1, sm1, v1, h1, h2, h3, h4⟩
            · rw [h1]
            · exfalso
              obtain ⟨rfl, _⟩ := sub_unique hg h1
              exact hn.1 (List.mem_map.2 ⟨_, h2, rfl⟩)

/-- The attribute is mapped once, apart from the keys `ks`. -/
def once (ks : List Str) (c : Cls) (a : Str) : Bool :=
  ((topMap c.dap).all fun p => (topMap c.dap).all fun q => !(p.2 == a) || !(q.2 == a) || p.1 == q.1 || decide (p.1 ∈ ks) || decide (q.1 ∈ ks)) &&
  ((subMaps c.dap).all fun s => (s.2.all fun p => s.2.all fun q => !(p.2 == a) || !(q.2 == a) || p.1 == q.1 || decide (p.1 ∈ ks) || decide (q.1 ∈ ks)) &&
    (!(s.2.any fun p => p.2 == a) || !((topMap c.dap).any fun p => p.2 == a)))

theorem once_top {ks : List Str} {c : Cls} {a : Str} (h : once ks c a = true) (k k' : Str) (hk : k ∉ ks) (hk' : k' ∉ ks) (h1 : Dict.get? (topMap c.dap) k = some a)
    (h2 : Dict.get? (topMap c.dap) k' = some a) : k = k' := by
  simp only [once, Bool.and_eq_true, List.all_eq_true] at h
  have := h.1 _ (Dict.mem_of_get? _ _ _ h1) _ (Dict.mem_of_get? _ _ _ h2)
  simpa [hk, hk'] using this

theorem once_sub {ks : List Str} {c : Cls} {a : Str} (h : once ks c a = true) {k0 : Str} {sm : List (Str × Str)} (hs : Dict.get? c.dap k0 = some (.sub sm))
    (k k' : Str) (hk : k ∉ ks) (hk' : k' ∉ ks) (h1 : Dict.get? sm k = some a) (h2 : Dict.get? sm k' = some a) : k = k' := by
  simp only [once, Bool.and_eq_true, List.all_eq_true] at h
  have m1 : (k0, sm) ∈ subMaps c.dap := List.mem_filterMap.2 ⟨_, Dict.mem_of_get? _ _ _ hs, rfl⟩
  have := (h.2 _ m1).1 _ (Dict.mem_of_get? _ _ _ h1) _ (Dict.mem_of_get? _ _ _ h2)
  simpa [hk, hk'] using this

theorem once_apart {ks : List Str} {c : Cls} {a : Str} (h : once ks c a = true) {k0 : Str} {sm : List (Str × Str)} (hs : Dict.get? c.dap k0 = some (.sub sm))
    (k k' : Str) (h1 : Dict.get? (topMap c.dap) k = some a) (h2 : Dict.get? sm k' = some a) : False := by
  simp only [once, Bool.and_eq_true, List.all_eq_true] at h
  have m1 : (k0, sm) ∈ subMaps c.dap := List.mem_filterMap.2 ⟨_, Dict.mem_of_get? _ _ _ hs, rfl⟩
  have := (h.2 _ m1).2
  simp only [Bool.or_eq_true, Bool.not_eq_true', List.any_eq_false, beq_iff_eq] at this
  rcases this with h | h
  · exact h _ (Dict.mem_of_get? _ _ _ h2) rfl
  · exact h _ (Dict.mem_of_get? _ _ _ h1) rfl

theorem once_nil {ks : List Str} {c : Cls} {a : Str} (h : once [] c a = true) : once ks c a = true := by
  simp only [once, Bool.and_eq_true, List.all_eq_true, Bool.or_eq_true, List.not_mem_nil, decide_false, Bool.false_eq_true, or_false] at h ⊢
  exact ⟨fun p hp q hq => .inl (.inl (h.1 p hp q hq)), fun s hs => ⟨fun p hp q hq => .inl (.inl ((h.2 s hs).1 p hp q hq)), (h.2 s hs).2⟩⟩

/-- A field that no member gave a value. -/
def fieldDflt (c : Cls) (f : Field) : Val := f.dflt.getD ((c.attr? f.name).getD .null)

theorem get?_fields (fs : List Field) (g : Field → Val) (a : Str) (h : a ∈ fs.map (·.name)) :
    ∃ f ∈ fs, f.name = a ∧ Dict.get? (fs.map fun f => (f.name, g f)) a = some (g f) := by
  induction fs with
  | nil => simp at h
  | cons f fs ih =>
    by_cases hf : f.name = a
    · exact ⟨f, List.mem_cons_self .., hf, by simp [Dict.get?, hf]⟩
    · obtain ⟨f', h1, h2, h3⟩ := ih (by
        simp only [List.map_cons, List.mem_cons] at h
        exact h.resolve_left (fun e => hf e.symm))
      exact ⟨f', List.mem_cons_of_mem _ h1, h2, by simp [Dict.get?, hf, h3]⟩

theorem clean_mem {ks : List Str} {l : List (Str × Json)} (h : Clean ks (.obj l)) {kv : Str × Json} (hkv : kv ∈ l) :
    kv.1 ∉ ks ∧ Clean ks kv.2 := by
  constructor
  · intro hk
    have := h _ hk
    simp only [noKey] at this
    exact (noKeyO_mem this kv hkv).1 rfl
  · intro k hk
    have := h k hk
    simp only [noKey] at this
    exact (noKeyO_mem this kv hkv).2

theorem valid_schOf {strict : Bool} {d : Def} {l : List (Str × Json)} (hv : Valid strict (.obj d) (.obj l)) {k : Str} {v : Json}
    (hm : (k, v) ∈ l) (hne : v ≠ .null) {s : Sch} (hs : schOf d.members k = some s) : Valid strict s v := by
  obtain ⟨m, hmm, hk, rfl⟩ := schOf_mem hs
  cases hv with
  | obj _ _ hn hreq h =>
    exact h m hmm v (by rw [hk]; exact Dict.get?_of_mem _ _ _ hn hm) (fun ⟨_, _, e⟩ => hne e)

theorem topKeys_nodup (c : Cls) : ((topMembers c).map (·.key)).Nodup ∧ ((bodyMembers c).map (·.key)).Nodup := by
  have : allCls.all (fun c => decide (((topMembers c).map (·.key)).Nodup ∧ ((bodyMembers c).map (·.key)).Nodup)) = true := by decide +kernel
  simpa using List.all_eq_true.1 this c (mem_allCls c)

theorem key_unique {ms : List Member} (h : (ms.map (·.key)).Nodup) {m m' : Member} (h1 : m ∈ ms) (h2 : m' ∈ ms) (hk : m.key = m'.key) : m = m' := by
  induction ms with
  | nil => cases h1
  | cons x xs ih =>
    simp only [List.map_cons, List.nodup_cons] at h
    rcases List.mem_cons.1 h1 with e1 | i1 <;> rcases List.mem_cons.1 h2 with e2 | i2
    · rw [e1, e2]
    · exact absurd (List.mem_map.2 ⟨_, i2, by rw [← hk, e1]⟩) h.1
    · exact absurd (List.mem_map.2 ⟨_, i1, by rw [hk, e2]⟩) h.1
    · exact ih h.2 i1 i2

theorem topKeys_unique (c : Cls) {m m' : Member} (h1 : m ∈ topMembers c) (h2 : m' ∈ topMembers c) (hk : m.key = m'.key) : m = m' :=
  key_unique (topKeys_nodup c).1 h1 h2 hk

/-- Unpacking a conforming object: what is assigned, and what is not. -/
theorem unpackF_spec {strict : Bool} {cs rs : List Cls} {ks : List Str} (hty : py!"__types" ∈ ks) (hsub : ∀ c ∈ rs, c ∈ cs)
    {fuel : Nat} (hr : RecOk strict cs rs ks fuel (unpackF fuel)) {c : Cls} (ha : accOk rs ks c = true) {l : List (Str × Json)}
    (hv : Valid strict (ref c) (.obj l)) (hk : Clean ks (.obj l)) (hd : depth (.obj l) < fuel + 1) :
    ∃ attrs asg, unpackF (fuel + 1) c (.obj l) = .ok (.obj c attrs) ∧
      (∀ a ∈ c.fields.map (·.name), ∃ f ∈ c.fields, f.name = a ∧ Dict.get? attrs a = some ((Dict.get? asg a).getD (fieldDflt c f))) ∧
      (∀ k v a x, Dict.get? c.dap k = some (.attr a) → (k, v) ∈ l → v ≠ .null → once ks c a = true →
        fieldVal (unpackF fuel) (c.fieldUnp a) v = .ok x → Dict.get? asg a = some x) ∧
      (∀ k sm l' k' v a x, Dict.get? c.dap k = some (.sub sm) → (k, Json.obj l') ∈ l → Dict.get? sm k' = some a → (k', v) ∈ l' → v ≠ .null →
        once ks c a = true → fieldVal (unpackF fuel) (c.fieldUnp a) v = .ok x → Dict.get? asg a = some x) ∧
      (∀ a, (∀ k v, Dict.get? c.dap k = some (.attr a) → (k, v) ∈ l → v = .null) →
        (∀ k sm l' k' v, Dict.get? c.dap k = some (.sub sm) → (k, Json.obj l') ∈ l → Dict.get? sm k' = some a → (k', v) ∈ l' → v = .null) →
        Dict.get? asg a = none) := by
  simp only [accOk, Bool.and_eq_true, List.all_eq_true] at ha
  obtain ⟨hdap, hfields⟩ := ha
  have hnd : (l.map (·.1)).Nodup := by cases hv; assumption
  have fresh1 : ∀ k1 ∈ l.map (·.1), k1 ∉ ks := by
    intro k1 h1
    obtain ⟨kv, hkv, rfl⟩ := List.mem_map.1 h1
    exact (clean_mem hk hkv).1
  have hdl : ∀ kv ∈ l, depth kv.2 < fuel := by
    intro kv hkv
    have := depth_mem_obj hkv
    simp only [depth] at hd; omega
  -- the top level
  have hok1 : ∀ kv ∈ l, ∀ a, Dict.get? (topMap c.dap) kv.1 = some a → kv.2 ≠ .null →
      ∃ x, fieldVal (unpackF fuel) (c.fieldUnp a) kv.2 = .ok x := by
    intro kv hkv a hg hne
    have hc := clean_mem hk hkv
    have := hdap _ (Dict.mem_of_get? _ _ _ ((topMap_get _ (dap_nodup c) _ _).1 hg))
    simp only [Bool.or_eq_true, decide_eq_true_eq] at this
    obtain ⟨x, hx, _⟩ := fieldVal_ok hsub hr (this.resolve_left hc.1)
      (fun s' hs => valid_schOf hv hkv hne hs) hc.2 (hdl kv hkv)
    exact ⟨x, hx⟩
  obtain ⟨asg1, w1, m1, g1, u1, e1⟩ := walkSub_ok (unpackF fuel) c (topMap c.dap) l hok1 []
  have htop : walkTop (unpackF fuel) c l [] [] = .ok (asg1, queueOf c.dap l) := by
    rw [walkTop_eq _ _ _ (fun kv hkv e => (clean_mem hk hkv).1 (e ▸ hty)), w1]; simp [Except.map]
  -- the nested mapping
  have hbody : ∀ k sm v, Dict.get? c.dap k = some (.sub sm) → (k, v) ∈ l → v ≠ .null →
      ∃ l', v = .obj l' ∧ Valid strict (.obj (.body c)) (.obj l') ∧ (l'.map (·.1)).Nodup ∧
      ∀ kv ∈ l', ∀ a, Dict.get? sm kv.1 = some a → kv.2 ≠ .null → ∃ x, fieldVal (unpackF fuel) (c.fieldUnp a) kv.2 = .ok x := by
    intro k sm v hg hm hne
    have := hdap _ (Dict.mem_of_get? _ _ _ hg)
    simp only [Bool.and_eq_true, beq_iff_eq, List.all_eq_true] at this
    have hvb := valid_schOf hv hm hne this.1
    have hkb := (clean_mem hk hm).2
    have hdb := hdl _ hm
    cases hvb with
    | obj _ l' hn' hreq' h' =>
      refine ⟨l', rfl, .obj _ l' hn' hreq' h', hn', ?_⟩
      intro kv hkv a hg' hne'
      have hc := clean_mem hkb hkv
      have hfit := this.2 _ (Dict.mem_of_get? _ _ _ hg')
      simp only [Bool.or_eq_true, decide_eq_true_eq] at hfit
      obtain ⟨x, hx, _⟩ := fieldVal_ok hsub hr (hfit.resolve_left hc.1)
        (fun s' hs => valid_schOf (.obj _ l' hn' hreq' h') hkv hne' hs) hc.2 (by
          have := depth_mem_obj hkv
          simp only [depth] at hdb; omega)
      exact ⟨x, hx⟩
  -- the end of the walk
  have hwalk : ∃ asg2, walkQueue (unpackF fuel) c (queueOf c.dap l) asg1 = .ok asg2 ∧
      (∀ a, (Dict.get? asg1 a).isSome = true → (Dict.get? asg2 a).isSome = true) ∧
      (∀ k sm l' k' v a, Dict.get? c.dap k = some (.sub sm) → (k, Json.obj l') ∈ l → Dict.get? sm k' = some a → (k', v) ∈ l' → v ≠ .null →
        (Dict.get? asg2 a).isSome = true) ∧
      (∀ k sm l' k' v a x, Dict.get? c.dap k = some (.sub sm) → (k, Json.obj l') ∈ l → Dict.get? sm k' = some a → (k', v) ∈ l' → v ≠ .null →
        once ks c a = true → fieldVal (unpackF fuel) (c.fieldUnp a) v = .ok x → Dict.get? asg2 a = some x) ∧
      (∀ a, (∀ k sm l' k' v, Dict.get? c.dap k = some (.sub sm) → (k, Json.obj l') ∈ l → Dict.get? sm k' = some a → (k', v) ∈ l' → v = .null) →
        Dict.get? asg2 a = Dict.get? asg1 a) := by
    rcases queueOf_one c l hnd with ⟨hq, hnull⟩ | ⟨k, sm, v, hg, hm, hne, hq⟩
    · refine ⟨asg1, by rw [hq]; rfl, fun _ h => h, ?_, ?_, fun _ _ => rfl⟩
      · intro k sm l' k' v a hg hm; exact absurd (hnull _ _ _ hg hm) (by simp)
      · intro k sm l' k' v a x hg hm; exact absurd (hnull _ _ _ hg hm) (by simp)
    · obtain ⟨l', rfl, hvb, hn', hok2⟩ := hbody k sm v hg hm hne
      obtain ⟨asg2, w2, m2, g2, u2, e2⟩ := walkSub_ok (unpackF fuel) c sm l' hok2 asg1
      have fresh2 : ∀ k1 ∈ l'.map (·.1), k1 ∉ ks := by
        intro k1 h1
        obtain ⟨kv, hkv, rfl⟩ := List.mem_map.1 h1
        exact (clean_mem (clean_mem hk hm).2 hkv).1
      have huniq : ∀ k1 sm1 l1, Dict.get? c.dap k1 = some (.sub sm1) → (k1, Json.obj l1) ∈ l → sm1 = sm ∧ l1 = l' := by
        intro k1 sm1 l1 hg1 hm1
        obtain ⟨rfl, rfl⟩ := sub_unique hg hg1
        have a1 := Dict.get?_of_mem _ _ _ hnd hm
        rw [Dict.get?_of_mem _ _ _ hnd hm1] at a1
        cases a1; exact ⟨rfl, rfl⟩
      refine ⟨asg2, by rw [hq]; simp [walkQueue, w2], m2, ?_, ?_, ?_⟩
      · intro k1 sm1 l1 k' v a hg1 hm1 hgs hmv hne'
        obtain ⟨rfl, rfl⟩ := huniq _ _ _ hg1 hm1
        exact g2 (k', v) hmv a hgs hne'
      · intro k1 sm1 l1 k' v a x hg1 hm1 hgs hmv hne' ho hx
        obtain ⟨rfl, rfl⟩ := huniq _ _ _ hg1 hm1
        exact e2 hn' a (fun k1 i1 k2 i2 => once_sub ho hg1 k1 k2 (fresh2 k1 i1) (fresh2 k2 i2)) (k', v) hmv x hgs hne' hx
      · intro a hall
        apply u2
        intro kv hkv hgk
        exact hall k sm l' kv.1 kv.2 hg hm hgk hkv
  obtain ⟨asg2, wq, m2, g2, e2, u2⟩ := hwalk
  -- construction
  have hcon : construct c asg2 = .ok (c.fields.map fun f => (f.name, (Dict.get? asg2 f.name).getD (fieldDflt c f))) := by
    apply mapM_ok
    intro f hf
    cases hg : Dict.get? asg2 f.name with
    | some v => simp
    | none =>
      simp only
      cases hdf : f.dflt with
      | some d => simp [fieldDflt, hdf]
      | none =>
        have := hfields f hf
        simp only [hdf, Option.isSome_none, Bool.or_false, Bool.or_eq_true, Bool.not_eq_true', List.any_eq_true, Bool.and_eq_true] at this
        rcases this with hi | ⟨m, hm, hreq, hmatch⟩
        · simp [hi, fieldDflt, hdf]
        · exfalso
          have hpres : ∃ v, Dict.get? l m.key = some v ∧ Valid strict m.sch v := by
            cases hv with
            | obj _ _ hn hr h =>
              obtain ⟨v, hv⟩ := Option.isSome_iff_exists.1 (hr m hm hreq)
              exact ⟨v, hv, h m hm v hv (fun ⟨_, e, _⟩ => by rw [hreq] at e; cases e)⟩
          obtain ⟨v, hgv, hval⟩ := hpres
          have hmem := Dict.mem_of_get? _ _ _ hgv
          cases hgd : Dict.get? c.dap m.key with
          | none => simp [hgd] at hmatch
          | some e =>
            cases e with
            | attr a =>
              simp only [hgd, Bool.and_eq_true, beq_iff_eq] at hmatch
              obtain ⟨rfl, hs⟩ := hmatch
              have hne : v ≠ .null := fun e => solid_nonnull hs (e ▸ hval)
              have := m2 _ (g1 _ hmem f.name ((topMap_get _ (dap_nodup c) _ _).2 hgd) hne)
              rw [hg] at this; cases this
            | sub sm =>
              simp only [hgd, List.any_eq_true, Bool.and_eq_true, beq_iff_eq] at hmatch
              obtain ⟨m', hm', ⟨hr', hs'⟩, hgs⟩ := hmatch
              have hne : v ≠ .null := by
                intro e
                have := hdap _ (Dict.mem_of_get? _ _ _ hgd)
                simp only [Bool.and_eq_true, beq_iff_eq] at this
                subst e
                -- the member is an object
                have h2 := this.1
                obtain ⟨m0, hm0, hk0, hs0⟩ := schOf_mem h2
                cases hv with
                | obj _ _ hn hr h =>
                  by_cases hs : m.sch = .obj (.body c)
                  · rw [hs] at hval; cases hval
                  · exact hs (by
                      have := topKeys_unique c hm hm0 hk0.symm
                      rw [this]; exact hs0)
              obtain ⟨l', rfl, hvb, hn', hok2⟩ := hbody _ sm v hgd hmem hne
              have hv' : ∃ v', Dict.get? l' m'.key = some v' ∧ Valid strict m'.sch v' := by
                cases hvb with
                | obj _ _ hn hr h =>
                  obtain ⟨v', hv'⟩ := Option.isSome_iff_exists.1 (hr m' hm' hr')
                  exact ⟨v', hv', h m' hm' v' hv' (fun ⟨_, e, _⟩ => by rw [hr'] at e; cases e)⟩
              obtain ⟨v', hgv', hval'⟩ := hv'
              have := g2 _ sm l' m'.key v' f.name hgd hmem hgs (Dict.mem_of_get? _ _ _ hgv') (fun e => solid_nonnull hs' (e ▸ hval'))
              rw [hg] at this; cases this
  refine ⟨c.fields.map fun f => (f.name, (Dict.get? asg2 f.name).getD (fieldDflt c f)), asg2, ?_, ?_, ?_, e2, ?_⟩
  · simp only [unpackF, htop, wq, hcon]
  · intro a hm
    exact get?_fields c.fields (fun f => (Dict.get? asg2 f.name).getD (fieldDflt c f)) a hm |>.imp fun f ⟨h1, h2, h3⟩ => ⟨h1, h2, by rw [h3, h2]⟩
  · intro k v a x hg hm hne ho hx
    have ht := (topMap_get _ (dap_nodup c) _ _).2 hg
    rw [u2 a (fun k1 sm1 l1 k' v' hg1 _ hgs => absurd (once_apart ho hg1 _ _ ht hgs) id)]
    exact e1 hnd a (fun k1 i1 k2 i2 => once_top ho k1 k2 (fresh1 k1 i1) (fresh1 k2 i2)) (k, v) hm x ht hne hx
  · intro a h1 h2
    rw [u2 a h2, u1 a (fun kv hkv hg => h1 kv.1 kv.2 ((topMap_get _ (dap_nodup c) _ _).1 hg) hkv)]
    rfl

/-! ## Reading -/

/-- The argument has this value unless it is given. -/
def unsaidIs (w v : Val) : Bool :=
  match w, v with
  | .null, .null => true
  | .bool b, .bool b' => b == b'
  | .str s, .str s' => s == s'
  | .int s, .int s' => s == s'
  | .list [], .list [] => true
  | .dict [], .dict [] => true
  | _, _ => false

theorem unsaidIs_eq {w v : Val} (h : unsaidIs w v = true) : w = v := by
  unfold unsaidIs at h
  split at h <;> simp_all

/-- The defaults of the optional members of a type. -/
def topDflt (c : Cls) : Bool :=
  (topMembers c).all fun m => m.required || m.sch == .obj (.body c) ||
    (decide (attrName c m.key ∈ c.fields.map (·.name)) &&
     (c.fields.all fun f => f.name != attrName c m.key || unsaidIs (fieldDflt c f) (unsaid m)) &&
     (c.dap.all fun (k, e) => match e with
      | .attr a => a != attrName c m.key || k == m.key
      | .sub sm => sm.all fun (_, a) => a != attrName c m.key))

/-- The class keeps each member of its schema (but the keys `ks`) in the attribute of that name. -/
def readOk (ks : List Str) (c : Cls) : Bool :=
  (topMembers c).all fun m => decide (m.key ∈ ks) || (if m.sch = .obj (.body c) then
      (match Dict.get? c.dap m.key with
      | some (.sub sm) => (bodyMembers c).all fun m' => decide (m'.key ∈ ks) ||
          (Dict.get? sm m'.key == some (attrName c m'.key) && once ks c (attrName c m'.key) && decide (attrName c m'.key ∈ c.fields.map (·.name)))
      | _ => (bodyMembers c).isEmpty)
    else (match Dict.get? c.dap m.key with
      | some (.attr a) => a == attrName c m.key && once ks c a && decide (a ∈ c.fields.map (·.name))
      | _ => false))

theorem schOf_of_mem {ms : List Member} (hn : (ms.map (·.key)).Nodup) {m : Member} (h : m ∈ ms) : schOf ms m.key = some m.sch := by
  unfold schOf
  cases hf : ms.find? (fun m' => m'.key == m.key) with
  | none => exact absurd (List.find?_eq_none.1 hf m h) (by simp)
  | some m' =>
    have := key_unique hn (List.mem_of_find?_eq_some hf) h (by simpa using List.find?_some hf)
    simp [this]

theorem unpackF_ok {strict : Bool} {cs rs : List Cls} {ks : List Str} (hty : py!"__types" ∈ ks) (hsub : ∀ c ∈ rs, c ∈ cs)
    (hacc : ∀ c ∈ cs, accOk rs ks c = true) (hread : ∀ c ∈ rs, readOk ks c = true) (hdf : ∀ c ∈ rs, topDflt c = true) (fuel : Nat) :
    RecOk strict cs rs ks fuel (unpackF fuel) := by
  induction fuel with
  | zero => intro c _ j _ _ hd; exact absurd hd (Nat.not_lt_zero _)
  | succ fuel ih =>
    intro c hc j hv hk hd
    have hobj : ∃ l, j = .obj l := by cases hv with | obj _ l => exact ⟨l, rfl⟩
    obtain ⟨l, rfl⟩ := hobj
    obtain ⟨attrs, asg, h1, h2, h3, h4, h5⟩ := unpackF_spec hty hsub ih (hacc c hc) hv hk hd
    refine ⟨_, h1, fun hcr => ?_⟩
    have hro := hread c hcr
    simp only [readOk, List.all_eq_true, Bool.or_eq_true, decide_eq_true_eq] at hro
    have ha := hacc c hc
    simp only [accOk, Bool.and_eq_true, List.all_eq_true] at ha
    obtain ⟨hdap, _⟩ := ha
    have hdl : ∀ kv ∈ l, depth kv.2 < fuel := by
      intro kv hkv
      have := depth_mem_obj hkv
      simp only [depth] at hd; omega
    -- one member at the top level
    have top : ∀ m ∈ topMembers c, ∀ v, Dict.get? l m.key = some v → v ≠ .null → m.sch ≠ .obj (.body c) →
        ∃ x, Dict.get? attrs (attrName c m.key) = some x ∧ Reads m.sch v x := by
      intro m hm v hg hne hs
      have hmem := Dict.mem_of_get? _ _ _ hg
      have hc1 := clean_mem hk hmem
      have := (hro m hm).resolve_left hc1.1
      rw [if_neg hs] at this
      cases hgd : Dict.get? c.dap m.key with
      | none => simp [hgd] at this
      | some e =>
        cases e with
        | sub sm => simp [hgd] at this
        | attr a =>
          simp only [hgd, Bool.and_eq_true, beq_iff_eq, decide_eq_true_eq] at this
          obtain ⟨⟨rfl, ho⟩, hf⟩ := this
          have hfit := hdap _ (Dict.mem_of_get? _ _ _ hgd)
          simp only [Bool.or_eq_true, decide_eq_true_eq] at hfit
          have hsch := schOf_of_mem (topKeys_nodup c).1 hm
          obtain ⟨x, hx, hrd⟩ := fieldVal_ok hsub ih (hfit.resolve_left hc1.1)
            (fun s' hs' => valid_schOf hv hmem hne hs') hc1.2 (hdl _ hmem)
          refine ⟨x, ?_, hrd _ hsch⟩
          obtain ⟨f, _, _, hget⟩ := h2 _ hf
          rw [hget, h3 _ _ _ x hgd hmem hne ho hx]; rfl
    have body : ∀ m ∈ topMembers c, ∀ l', Dict.get? l m.key = some (.obj l') → m.sch = .obj (.body c) →
        ∀ m' ∈ bodyMembers c, ∀ v, Dict.get? l' m'.key = some v → v ≠ .null →
        ∃ x, Dict.get? attrs (attrName c m'.key) = some x ∧ Reads m'.sch v x := by
      intro m hm l' hg hs m' hm' v hgv hne
      have hmem := Dict.mem_of_get? _ _ _ hg
      have hmem' := Dict.mem_of_get? _ _ _ hgv
      have hc1 := clean_mem hk hmem
      have hc2 := clean_mem hc1.2 hmem'
      have := (hro m hm).resolve_left hc1.1
      rw [if_pos hs] at this
      cases hgd : Dict.get? c.dap m.key with
      | none => simp only [hgd, List.isEmpty_iff] at this; rw [this] at hm'; cases hm'
      | some e =>
        cases e with
        | attr a => simp only [hgd, List.isEmpty_iff] at this; rw [this] at hm'; cases hm'
        | sub sm =>
          simp only [hgd, List.all_eq_true, Bool.or_eq_true, Bool.and_eq_true, beq_iff_eq, decide_eq_true_eq] at this
          obtain ⟨⟨hgs, ho⟩, hf⟩ := (this m' hm').resolve_left hc2.1
          have hent := hdap _ (Dict.mem_of_get? _ _ _ hgd)
          simp only [Bool.and_eq_true, beq_iff_eq, List.all_eq_true, Bool.or_eq_true, decide_eq_true_eq] at hent
          have hfit := (hent.2 _ (Dict.mem_of_get? _ _ _ hgs)).resolve_left hc2.1
          have hvb : Valid strict (.obj (.body c)) (.obj l') := valid_schOf hv hmem (by simp) hent.1
          have hsch := schOf_of_mem (topKeys_nodup c).2 hm'
          have hdb := hdl _ hmem
          obtain ⟨x, hx, hrd⟩ := fieldVal_ok hsub ih hfit
            (fun s' hs' => valid_schOf hvb hmem' hne hs') hc2.2 (by
              have : depth v ≤ depthO l' := depth_mem_obj hmem'
              simp only [depth] at hdb; omega)
          refine ⟨x, ?_, hrd _ hsch⟩
          obtain ⟨f, _, _, hget⟩ := h2 _ hf
          rw [hget, h4 _ _ _ _ _ _ x hgd hmem hgs hmem' hne ho hx]; rfl
    refine .obj c l attrs (fun k => (Dict.get? attrs (attrName c k)).getD .null) (fun k => (Dict.get? attrs (attrName c k)).getD .null) ?_ ?_ ?_ ?_ ?_
    · intro m hm v hg hne hs
      obtain ⟨x, hx, _⟩ := top m hm v hg hne hs
      rw [hx]; rfl
    · intro m hm v hg hne hs
      obtain ⟨x, hx, hr⟩ := top m hm v hg hne hs
      simp only [hx]; exact hr
    · intro m hm l' hg hs m' hm' v hgv hne
      obtain ⟨x, hx, _⟩ := body m hm l' hg hs m' hm' v hgv hne
      rw [hx]; rfl
    · intro m hm l' hg hs m' hm' v hgv hne
      obtain ⟨x, hx, hr⟩ := body m hm l' hg hs m' hm' v hgv hne
      simp only [hx]; exact hr
    · intro m hm ho hs hun
      have hd := hdf c hcr
      simp only [topDflt, List.all_eq_true] at hd
      have := hd m hm
      simp only [ho, Bool.false_or, Bool.or_eq_true, Bool.and_eq_true, beq_iff_eq] at this
      rcases this with h | ⟨⟨hin, hdf⟩, hdap'⟩
      · exact absurd h hs
      simp only [decide_eq_true_eq, List.all_eq_true, Bool.or_eq_true, bne_iff_ne] at hin hdf hdap'
      obtain ⟨f, hf, hname, hget⟩ := h2 _ hin
      have hnone : Dict.get? asg (attrName c m.key) = none := by
        apply h5
        · intro k v hg hml
          have := hdap' _ (Dict.mem_of_get? _ _ _ hg)
          simp only [Bool.or_eq_true, bne_iff_ne, beq_iff_eq] at this
          have hk' := this.resolve_left (fun h => h rfl)
          subst hk'
          have hn : (l.map (·.1)).Nodup := by cases hv; assumption
          exact hun v (Dict.get?_of_mem _ _ _ hn hml)
        · intro k sm l' k' v hg hml hgs hmv
          have := hdap' _ (Dict.mem_of_get? _ _ _ hg)
          simp only [List.all_eq_true, bne_iff_ne] at this
          exact absurd rfl (this _ (Dict.mem_of_get? _ _ _ hgs))
      rw [hget, hnone]
      simp only [Option.getD_none, Option.some.injEq]
      exact unsaidIs_eq ((hdf f hf).resolve_left (fun h => h hname))

/-! ## Messages -/

/-- The schema and the registry agree on a request: its command is registered for the class. -/
def reqOk (c : Cls) : Bool :=
  (topMembers c).contains (req py!"seq" .int) && (topMembers c).contains (req py!"type" (.oneOf [py!"request"])) &&
  (match schOf (topMembers c) py!"command" with
  | some (.oneOf [s]) => (topMembers c).contains (req py!"command" (.oneOf [s])) && Dict.get? (registry .request) s == some c
  | _ => false)

theorem reqOk_all (c : Cls) (h : c.base = some .Request) : reqOk c = true := by
  have : allCls.all (fun c => c.base != some .Request || reqOk c) = true := by decide +kernel
  have := List.all_eq_true.1 this c (mem_allCls c)
  simpa [h] using this

theorem valid_required {strict : Bool} {d : Def} {l : List (Str × Json)} (hv : Valid strict (.obj d) (.obj l)) {m : Member} (hm : m ∈ d.members)
    (hr : m.required = true) : ∃ v, Dict.get? l m.key = some v ∧ Valid strict m.sch v := by
  cases hv with
  | obj _ _ hn hreq h =>
    obtain ⟨v, hv⟩ := Option.isSome_iff_exists.1 (hreq m hm hr)
    exact ⟨v, hv, h m hm v hv (fun ⟨_, e, _⟩ => by rw [hr] at e; cases e)⟩

theorem valid_obj {strict : Bool} {d : Def} {j : Json} (hv : Valid strict (.obj d) j) : ∃ l, j = .obj l := by
  cases hv with | obj _ l => exact ⟨l, rfl⟩

theorem request_dispatch {strict : Bool} {c : Cls} (hc : c.base = some .Request) {l : List (Str × Json)} (hv : Valid strict (ref c) (.obj l)) :
    unpack (.obj l) = unpackCls c (.obj l) := by
  have h := reqOk_all c hc
  simp only [reqOk, Bool.and_eq_true, List.contains_iff_mem] at h
  obtain ⟨⟨h1, h2⟩, h3⟩ := h
  obtain ⟨ty, ht, htv⟩ := valid_required hv (d := .top c) h2 rfl
  have ht' : ty = .str py!"request" := by
    cases htv with | oneOf _ s hs => simp only [List.mem_singleton] at hs; rw [hs]
  subst ht'
  cases hs : schOf (topMembers c) py!"command" with
  | none => simp [hs] at h3
  | some s =>
    rw [hs] at h3
    split at h3
    · rename_i s' he
      simp only [Bool.and_eq_true, List.contains_iff_mem, beq_iff_eq] at h3
      obtain ⟨cmd, hg, hcv⟩ := valid_required hv (d := .top c) h3.1 rfl
      have hc' : cmd = .str s' := by
        cases hcv with | oneOf _ s hs => simp only [List.mem_singleton] at hs; rw [hs]
      subst hc'
      refine unpack_request _ s' c ?_ ?_ h3.2
      · simp only [getItem]; simp only [req] at ht; rw [ht]
      · simp only [getItem]; simp only [req] at hg; rw [hg]
    · cases h3

/-- The classes of the objects inside requests, and the requests. -/
def requestTypes : List Cls := [.ValueFormat, .Source, .Checksum, .SourceBreakpoint, .ExceptionFilterOptions, .StackFrameFormat]
def plainRequests : List Cls := [.CancelRequest, .ConfigurationDoneRequest, .ContinueRequest, .DisconnectRequest,
  .EvaluateRequest, .InitializeRequest, .NextRequest, .RunInTerminalRequest, .ScopesRequest, .SetBreakpointsRequest,
  .SetVariableRequest, .StackTraceRequest, .StepOutRequest, .TerminateRequest, .ThreadsRequest, .VariablesRequest]

def readRequests : List Cls := requestTypes ++ plainRequests ++ [.RunInTerminalResponse]

theorem read_acc (c : Cls) (hc : c ∈ .StepInRequest :: readRequests) : accOk readRequests [py!"__types"] c = true := by
  have : (Cls.StepInRequest :: readRequests).all (accOk readRequests [py!"__types"]) = true := by decide +kernel
  exact List.all_eq_true.1 this c hc

theorem read_read (c : Cls) (hc : c ∈ readRequests) : readOk [py!"__types"] c = true := by
  have : readRequests.all (readOk [py!"__types"]) = true := by decide +kernel
  exact List.all_eq_true.1 this c hc

theorem read_dflt (c : Cls) (hc : c ∈ Cls.StepInRequest :: .SetExceptionBreakpointsRequest :: readRequests) : topDflt c = true := by
  have : (Cls.StepInRequest :: .SetExceptionBreakpointsRequest :: readRequests).all topDflt = true := by decide +kernel
  exact List.all_eq_true.1 this c hc

theorem read_dflt1 (c : Cls) (hc : c ∈ readRequests) : topDflt c = true := read_dflt c (by simp [hc])
theorem read_dflt2 (c : Cls) (hc : c ∈ .SetExceptionBreakpointsRequest :: readRequests) : topDflt c = true := read_dflt c (List.mem_cons_of_mem _ hc)
theorem read_dflt3 (c : Cls) (hc : c ∈ .StepInRequest :: readRequests) : topDflt c = true := read_dflt c (by
  rcases List.mem_cons.1 hc with rfl | h <;> simp_all)

theorem exc_acc (c : Cls) (hc : c ∈ .SetExceptionBreakpointsRequest :: readRequests) :
    accOk (.SetExceptionBreakpointsRequest :: readRequests) [py!"__types", py!"exceptionOptions"] c = true := by
  have : (Cls.SetExceptionBreakpointsRequest :: readRequests).all
    (accOk (.SetExceptionBreakpointsRequest :: readRequests) [py!"__types", py!"exceptionOptions"]) = true := by decide +kernel
  exact List.all_eq_true.1 this c hc

theorem exc_read (c : Cls) (hc : c ∈ .SetExceptionBreakpointsRequest :: readRequests) : readOk [py!"__types", py!"exceptionOptions"] c = true := by
  have : (Cls.SetExceptionBreakpointsRequest :: readRequests).all (readOk [py!"__types", py!"exceptionOptions"]) = true := by decide +kernel
  exact List.all_eq_true.1 this c hc

theorem step_acc (c : Cls) (hc : c ∈ .StepInRequest :: readRequests) :
    accOk (.StepInRequest :: readRequests) [py!"__types", py!"targetId"] c = true := by
  have : (Cls.StepInRequest :: readRequests).all
    (accOk (.StepInRequest :: readRequests) [py!"__types", py!"targetId"]) = true := by decide +kernel
  exact List.all_eq_true.1 this c hc

theorem step_read (c : Cls) (hc : c ∈ .StepInRequest :: readRequests) : readOk [py!"__types", py!"targetId"] c = true := by
  have : (Cls.StepInRequest :: readRequests).all (readOk [py!"__types", py!"targetId"]) = true := by decide +kernel
  exact List.all_eq_true.1 this c hc

/-- The defaults of the arguments of a request. -/
def dfltOk (c : Cls) : Bool :=
  (bodyMembers c).all fun m => m.required || (c == .ContinueRequest && m.key == py!"singleThread") ||
    (decide (attrName c m.key ∈ c.fields.map (·.name)) &&
     (c.fields.all fun f => f.name != attrName c m.key || unsaidIs (fieldDflt c f) (unsaid m)) &&
     (c.dap.all fun (k, e) => match e with
      | .attr a => a != attrName c m.key
      | .sub sm => k == py!"arguments" && sm.all fun (k', a) => a != attrName c m.key || k' == m.key))

theorem dfltOk_all (c : Cls) (h : c ∈ plainRequests) : dfltOk c = true := by
  have : plainRequests.all dfltOk = true := by decide +kernel
  exact List.all_eq_true.1 this c h

end Verif.Dap.Schema
