import Verif.Props.C26Classes
/-!
# C80: unions as targets in every format

`from_json(U, to_json(obj, cls=U))` and its siblings, for a union `U` of dataclasses, externally, internally or adjacently tagged,
or untagged if the keys tell the members apart.
-/

namespace Verif.Props
open Spec

namespace C80

/-- `c` is the member of the union `ts` that its objects are written as; the generated function of the union is found under its
name, and no global serializer or deserializer takes objects of `c`. -/
structure Variant (env : Env) (ts : List Ty) (c : ClassId) (cd : ClassDef) : Prop where
  notOpt : (Ty.union ts).isOpt = false
  find : findUnion env (env.unionsOfTy (.union ts)) (unionFuncName env ts) = some ts
  dist : DistinctNames env ts
  cls : env.cls c = some cd
  opaq : cd.transparent = false
  own : OwnVariant env c ts
  glob : NoGlobal env c

/-- Taggings under which every object of class `c` comes back: an adjacent tag differs from its content key; an internal tag is
not a key that the class writes or reads, and the class does not refuse it. Without tags every earlier member needs a key that `c` never
writes, and reading has to end (C53). -/
inductive TagOk (env : Env) (ts : List Ty) (c : ClassId) (cd : ClassDef) : Tagging → Prop
  | external : TagOk env ts c cd .external
  | adjacent {tag content} : tag ≠ content → TagOk env ts c cd (.adjacent tag content)
  | internal {tag} : ReadsOnly env c → (∀ c' cd, FlatReach env c c' → env.cls c' = some cd → cd.denyUnknown = false) →
      ¬ Spec.Reads env c tag → tag ∉ wires env cd → TagOk env ts c cd (.internal tag)
  | untagged {pre post} : Ends env → ts = pre ++ .cls c :: post → (∀ t ∈ ts, ∃ c cd, ClassMember env t c cd) →
      (∀ c', .cls c' ∈ pre → ∃ cd' f, Requires env c' cd' f ∧ ∀ k ∈ f.conv cd'.deCase :: f.alias, k ∉ wires env cd) → TagOk env ts c cd .untagged

/-- The dict of a variant, tagged. -/
def taggedDict (tg : Tagging) (name : String) (kvs : List (Val × Val)) : Val :=
  match tg with
  | .external => .dict .plain [(.str name, .dict .plain kvs)]
  | .adjacent tag content => .dict .plain [(.str content, .dict .plain kvs), (.str tag, .str name)]
  | .internal tag => .dict .plain (kvs ++ [(.str tag, .str name)])
  | .untagged => .dict .plain kvs

/-- The format of a union target: the union's generated functions keep sets and None and take instances as they are, whatever the
caller asks for. -/
structure ForUnion {env : Env} (F : Fmt env) : Prop where
  reuse : F.reuse = false
  conv : F.conv = false
  skipNone : F.skipNone = false
  deReuse : F.deReuse = true

theorem member {env : Env} {ts c} {cd : ClassDef} (V : Variant env ts c cd) : .cls c ∈ ts ∧ c ∈ cd.mro := by
  obtain ⟨cd', pre, post, hc', hm, rfl, _⟩ := V.own
  rw [V.cls] at hc'; cases hc'
  exact ⟨by simp, hm⟩

/-- What is written, and that it is read back after the format has done what it does. -/
theorem target {env : Env} {F : Fmt env} (hF : ForUnion F) {ts c} {cd : ClassDef} (V : Variant env ts c cd) {tg} (hT : TagOk env ts c cd tg)
    (hok : EnvOk env F) {attrs} (hv : HasTy env (.cls c) (.inst c attrs)) :
    ∃ kvs, (∃ n, toDict env unionSe n (.inst c attrs) = .ok (.dict .plain kvs)) ∧
      (∀ so : SeOpts, so.c = some (.union ts) → so.tagging = tg → ∃ n, toDict env so n (.inst c attrs) = .ok (taggedDict tg cd.name kvs)) ∧
      (∀ o : DeOpts, o.tagging = tg → o.numbers = F.numbers → ∃ n, fromDict env o n (.union ts) (F.wire (taggedDict tg cd.name kvs)) = .ok (.inst c attrs)) := by
  obtain ⟨_, es, hes⟩ := (rt_main' hok hv).2 c cd rfl V.cls V.opaq
  have hnd := hes.nodup (hok.classes c cd V.cls V.opaq)
  obtain ⟨hse, hde⟩ := top_enc hok V.cls V.opaq hv hes
  obtain ⟨n1, h1⟩ := hse.exists
  have h1 := h1 unionSe rfl hF.skipNone.symm hF.reuse.symm hF.conv.symm
  obtain ⟨n2, h2⟩ := hde.exists
  have h2 : ∀ o : DeOpts, o.numbers = F.numbers → fromDict env (unionDe o) n2 (.cls c) (F.wire (.dict .plain (strKeys es))) = .ok (.inst c attrs) :=
    fun o ho => h2 (unionDe o) hF.deReuse.symm ho
  obtain ⟨hmem, hm⟩ := member V
  have hdata : IsData c (F.wire (.dict .plain (strKeys es))) := by
    rw [wire_strKeys F hnd]; intro as h; cases h
  refine ⟨strKeys es, ⟨n1, h1⟩, ?_, ?_⟩
  · intro so hso htg
    cases hT with
    | external => exact (C23_writes_partial V.notOpt hso htg V.find V.cls V.glob V.own).2 ⟨_, ⟨n1, h1⟩, rfl⟩
    | adjacent hne => exact (C25_writes_partial V.notOpt hso htg hne V.find V.cls V.glob V.own).2 ⟨_, ⟨n1, h1⟩, rfl⟩
    | internal hr hdeny hno hnw =>
      refine C24_writes_partial V.notOpt hso htg V.find V.cls V.glob V.own h1 ?_
      intro e he hk
      obtain ⟨x, hx, rfl⟩ := List.mem_map.1 he
      refine hnw (hes.keys.subset (List.mem_map.2 ⟨x, hx, ?_⟩))
      exact Val.str.inj hk
    | untagged => exact (union_writes' V.notOpt hso V.find V.cls V.glob V.own).2 ⟨_, ⟨n1, h1⟩, by rw [htg]; rfl⟩
  · intro o htg hnum
    cases hT with
    | external =>
      have hw : F.wire (taggedDict .external cd.name (strKeys es)) = .dict .plain [(.str cd.name, F.wire (.dict .plain (strKeys es)))] := by
        unfold taggedDict
        rw [F.wire_dict _ (by simp)]
        simp [F.key_str]
      rw [hw]
      refine (C23_reads V.notOpt htg V.find V.dist V.cls hm hmem V.glob hdata ?_ ?_).2 ⟨n2, h2 o hnum⟩
      · simp [getStr]
      · intro c' cd' hc' hcd' hne
        refine getStr_none (fun kv hkv => ?_)
        rw [List.mem_singleton.1 hkv]
        intro hk
        exact hne (V.dist.2 c' c cd' cd hc' hmem hcd' V.cls (Val.str.inj hk).symm)
    | @adjacent tag content hne =>
      have hw : F.wire (taggedDict (.adjacent tag content) cd.name (strKeys es)) =
          .dict .plain [(.str content, F.wire (.dict .plain (strKeys es))), (.str tag, .str cd.name)] := by
        unfold taggedDict
        dsimp only
        rw [F.wire_dict _ (by simp [F.key_str, pyEq_str_ne hne.symm])]
        simp [F.key_str, F.wire_str]
      rw [hw]
      refine (C25_reads V.notOpt htg V.find V.dist V.cls hm hmem V.glob hdata ?_ ?_).2 ⟨n2, h2 o hnum⟩
      · simp [getStr, hne.symm]
      · simp [getStr]
    | @internal tag hr hdeny hno hnw =>
      have hnd' : ((es ++ [(tag, Val.str cd.name)]).map (·.1)).Nodup := by
        rw [List.map_append, List.nodup_append]
        refine ⟨hnd, by simp, ?_⟩
        intro a ha b hb hab
        simp only [List.map_cons, List.map_nil, List.mem_cons, List.not_mem_nil, or_false] at hb
        subst hb; subst hab
        exact hnw (hes.keys.subset ha)
      have hw : F.wire (taggedDict (.internal tag) cd.name (strKeys es)) =
          .dict .plain (es.map (fun e => (Val.str e.1, F.wire e.2)) ++ [(.str tag, .str cd.name)]) := by
        have : taggedDict (.internal tag) cd.name (strKeys es) = .dict .plain (strKeys (es ++ [(tag, Val.str cd.name)])) := by
          simp [taggedDict, strKeys]
        rw [this, wire_strKeys F hnd']
        simp [F.wire_str]
      have hnk : ∀ e ∈ es.map (fun e => (Val.str e.1, F.wire e.2)), e.1 ≠ .str tag := by
        intro e he hk
        obtain ⟨x, hx, rfl⟩ := List.mem_map.1 he
        refine hnw (hes.keys.subset (List.mem_map.2 ⟨x, hx, ?_⟩))
        exact Val.str.inj hk
      rw [hw]
      refine (C24_reads V.notOpt htg V.find V.dist V.cls hm hmem V.glob ?_).2 ⟨n2, ?_⟩
      · rw [getStr_append_right (getStr_none hnk)]
        simp [getStr]
      · rw [C18_unknown_ignored_partial (fun k => !pyEq k (.str tag)) hr hdeny V.glob ?_]
        · rw [List.filter_append]
          have hf : (es.map (fun e => (Val.str e.1, F.wire e.2))).filter (fun kv => !pyEq kv.1 (.str tag)) = es.map (fun e => (Val.str e.1, F.wire e.2)) := by
            rw [List.filter_eq_self]
            intro kv hkv
            have : pyEq kv.1 (.str tag) = false := by
              rw [Bool.eq_false_iff]
              intro he
              exact hnk kv hkv (pyEq_str_right.1 he)
            simp [this]
          rw [hf]
          have := h2 o hnum
          rw [wire_strKeys F hnd] at this
          simpa [pyEq] using this
        · intro k hk
          have : k ≠ tag := by rintro rfl; exact hno hk
          simp [pyEq_str_ne this]
    | untagged he hsplit hts hreq =>
      have h2 := h2 o hnum
      show ∃ n, fromDict env o n (.union ts) (F.wire (.dict .plain (strKeys es))) = _
      rw [wire_strKeys F hnd] at h2 ⊢
      refine C26_required_partial he V.notOpt htg V.find hts hsplit ?_ ⟨n2, h2⟩
      intro c' hc'
      obtain ⟨cd', f, hr, hk⟩ := hreq c' hc'
      refine ⟨cd', f, hr, fun k hkm => getStr_none (fun kv hkv heq => ?_)⟩
      obtain ⟨x, hx, rfl⟩ := List.mem_map.1 hkv
      refine hk k hkm (hes.keys.subset (List.mem_map.2 ⟨x, hx, ?_⟩))
      exact Val.str.inj heq

/-- Through an encoder and a decoder. -/
theorem codec {env : Env} {F : Fmt env} (hF : ForUnion F) {ts c} {cd : ClassDef} (V : Variant env ts c cd) {tg} (hT : TagOk env ts c cd tg)
    (hok : EnvOk env F) {attrs} (hv : HasTy env (.cls c) (.inst c attrs)) :
    ∃ kvs, (∃ n, toDict env unionSe n (.inst c attrs) = .ok (.dict .plain kvs)) ∧
      ∀ (so : SeOpts) (K : Codec), so.c = some (.union ts) → so.tagging = tg → FaithfulOn K F.wire (taggedDict tg cd.name kvs) →
        ∃ s, Ev (fun n => encodeDict env K so n (.inst c attrs) = .ok s ∧ decodeDict env K F.numbers tg n (.union ts) s = .ok (.inst c attrs)) := by
  obtain ⟨kvs, h0, h1, h2⟩ := target hF V hT hok hv
  refine ⟨kvs, h0, ?_⟩
  rintro so K hso htg ⟨s, he, hd⟩
  obtain ⟨n1, h1⟩ := h1 so hso htg
  obtain ⟨n2, h2⟩ := h2 { reuse := some false, numbers := F.numbers, tagging := tg } rfl rfl
  refine ⟨s, max n1 n2, fun n hn => ⟨?_, ?_⟩⟩
  · unfold encodeDict
    rw [toDict_mono (by omega) h1]
    dsimp only
    rw [he]; rfl
  · unfold decodeDict
    rw [hd]
    exact fromDict_mono (by omega) h2

end C80

open C80

/-- **C80**, JSON: whatever the other options of `to_json`. -/
theorem C80_json_partial {env : Env} {ts c} {cd : ClassDef} {attrs} {fo : FmtOpts} {cn : Bool} (hnum : NumText env.W) (V : Variant env ts c cd) (hT : TagOk env ts c cd fo.tagging)
    (hu : fo.c = some (.union ts)) (hok : EnvOk env { jsonFmt env hnum cn with conv := false, deReuse := true, reuse_raw := fun h => by cases h })
    (hv : HasTy env (.cls c) (.inst c attrs)) :
    ∃ kvs, (∃ n, toDict env unionSe n (.inst c attrs) = .ok (.dict .plain kvs)) ∧
      ∀ K, FaithfulOn K (jsonWire env.W) (taggedDict fo.tagging cd.name kvs) →
        ∃ s, Ev (fun n => toJson env K fo n (.inst c attrs) = .ok s ∧ fromJson env K n (.union ts) s cn fo.tagging = .ok (.inst c attrs)) := by
  obtain ⟨kvs, h0, h⟩ := codec ⟨rfl, rfl, rfl, rfl⟩ V hT hok hv
  exact ⟨kvs, h0, fun K hK => h fo.se K hu rfl hK⟩

/-- **C80**, YAML. -/
theorem C80_yaml_partial {env : Env} {ts c} {cd : ClassDef} {attrs} {fo : FmtOpts} {cn : Bool} (V : Variant env ts c cd) (hT : TagOk env ts c cd fo.tagging)
    (hu : fo.c = some (.union ts)) (hok : EnvOk env { yamlFmt env cn with conv := false, deReuse := true, reuse_raw := fun h => by cases h })
    (hv : HasTy env (.cls c) (.inst c attrs)) :
    ∃ kvs, (∃ n, toDict env unionSe n (.inst c attrs) = .ok (.dict .plain kvs)) ∧
      ∀ K, FaithfulOn K yamlWire (taggedDict fo.tagging cd.name kvs) →
        ∃ s, Ev (fun n => toYaml env K fo n (.inst c attrs) = .ok s ∧ fromYaml env K n (.union ts) s cn fo.tagging = .ok (.inst c attrs)) := by
  obtain ⟨kvs, h0, h⟩ := codec ⟨rfl, rfl, rfl, rfl⟩ V hT hok hv
  exact ⟨kvs, h0, fun K hK => h fo.se K hu rfl hK⟩

/-- **C80**, TOML and pickle, for a codec that gives back what it is handed. -/
theorem C80_toml_pickle_partial {env : Env} {ts c} {cd : ClassDef} {attrs} {fo : FmtOpts} (V : Variant env ts c cd) (hT : TagOk env ts c cd fo.tagging)
    (hu : fo.c = some (.union ts)) (hok : EnvOk env (rawFmt env true false false true (by intro h; cases h)))
    (hv : HasTy env (.cls c) (.inst c attrs)) :
    ∃ kvs, (∃ n, toDict env unionSe n (.inst c attrs) = .ok (.dict .plain kvs)) ∧
      ∀ K, FaithfulOn K id (taggedDict fo.tagging cd.name kvs) →
        (∃ s, Ev (fun n => toToml env K n (.inst c attrs) fo = .ok s ∧ fromToml env K n (.union ts) s fo.tagging = .ok (.inst c attrs))) ∧
        (∃ s, Ev (fun n => toPickle env K fo n (.inst c attrs) = .ok s ∧ fromPickle env K n (.union ts) s fo.tagging = .ok (.inst c attrs))) := by
  obtain ⟨kvs, h0, h⟩ := codec ⟨rfl, rfl, rfl, rfl⟩ V hT hok hv
  exact ⟨kvs, h0, fun K hK => ⟨h fo.se K hu rfl hK, h { fo.se with skipNone := false } K hu rfl hK⟩⟩

/-- **C80**, msgpack, dict based; the tagging is the default one. -/
theorem C80_msgpack_partial {env : Env} {ts c} {cd : ClassDef} {attrs} {mo : MpOpts} (V : Variant env ts c cd) (hm : mo.named = true) (he : mo.ext = none)
    (hu : mo.c = some (.union ts)) (hok : EnvOk env { mpFmt env true with conv := false, deReuse := true, reuse_raw := fun h => by cases h })
    (hv : HasTy env (.cls c) (.inst c attrs)) :
    ∃ kvs, (∃ n, toDict env unionSe n (.inst c attrs) = .ok (.dict .plain kvs)) ∧
      ∀ K, MpFaithfulOn K (.dict .plain [(.str cd.name, .dict .plain kvs)]) →
        ∃ s, Ev (fun n => toMsgpack env K mo n (.inst c attrs) = .ok s ∧ fromMsgpack env K true n (.union ts) s = .ok (.inst c attrs)) := by
  obtain ⟨kvs, h0, h1, h2⟩ := target ⟨rfl, rfl, rfl, rfl⟩ V .external hok hv
  refine ⟨kvs, h0, ?_⟩
  rintro K ⟨s, hp, hd⟩
  obtain ⟨n1, h1⟩ := h1 { reuse := some mo.reuse, conv := some mo.conv, c := mo.c } hu rfl
  obtain ⟨n2, h2⟩ := h2 { reuse := some false } rfl rfl
  refine ⟨s, max n1 n2, fun n hn => ⟨?_, ?_⟩⟩
  · unfold toMsgpack
    rw [he, hm]
    dsimp only
    rw [if_pos rfl, toDict_mono (by omega) h1]
    dsimp only [taggedDict]
    rw [hp]; rfl
  · unfold fromMsgpack fromMsgpackPlain
    dsimp only
    rw [hd]
    dsimp only [liftP]
    rw [if_pos rfl]
    exact fromDict_mono (by omega) h2

namespace C80

/-- `class P: x: int`, `class Q: y: str; m: list[float]`. -/
def P : ClassDef := { name := "P", mro := ["P"], fields := [{ name := "x", ty := .prim .int }] }
def Q : ClassDef := { name := "Q", mro := ["Q"], fields := [{ name := "y", ty := .prim .str }, { name := "m", ty := .list .list (.prim .float) }] }
def ts : List Ty := [.cls "P", .cls "Q"]
def env : Env := { W := Ex.WT, P := Ex.P, classes := [("P", P), ("Q", Q)], enums := [] }
def q : List (String × Val) := [("y", .str "s"), ("m", .list [.float (.fin 1)])]

theorem env_cases {c : ClassId} {cd : ClassDef} (h : env.cls c = some cd) : (c = "P" ∧ cd = P) ∨ (c = "Q" ∧ cd = Q) := by
  unfold Env.cls env at h
  simp only [List.lookup_cons, List.lookup_nil] at h
  split at h
  · rename_i hh
    exact .inl ⟨by simpa using hh, by cases h; rfl⟩
  · split at h
    · rename_i hh
      exact .inr ⟨by simpa using hh, by cases h; rfl⟩
    · cases h

theorem envOk {F : Fmt env} (hs : F.skipNone = false) : EnvOk env F where
  classes := by
    intro c cd hc _
    rcases env_cases hc with ⟨rfl, rfl⟩ | ⟨rfl, rfl⟩
    · exact {
        fields := by
          intro f hf
          simp only [P, List.mem_cons, List.not_mem_nil, or_false] at hf
          subst hf
          exact .plain ⟨rfl, ⟨rfl, rfl, rfl⟩, .inl rfl, rfl, ⟨rfl, rfl⟩, rfl⟩ (.never ⟨rfl, rfl, rfl, rfl⟩ (fun h => by rw [hs] at h; cases h))
        names := by decide
        wires := by decide
        types := by
          intro f hf named _
          simp only [P, List.mem_cons, List.not_mem_nil, or_false] at hf
          subst hf
          exact .scalar .prim
        notTransparent := rfl
        noHook := by intro p h; cases h
        noClassCustom := ⟨rfl, rfl⟩
        mroSelf := by simp [P]
        kwLast := by simp [P]
        kwTuple := by
          intro _ f hf
          simp only [P, List.mem_cons, List.not_mem_nil, or_false] at hf
          subst hf; exact ⟨rfl, rfl⟩ }
    · exact {
        fields := by
          intro f hf
          simp only [Q, List.mem_cons, List.not_mem_nil, or_false] at hf
          rcases hf with rfl | rfl <;>
            exact .plain ⟨rfl, ⟨rfl, rfl, rfl⟩, .inl rfl, rfl, ⟨rfl, rfl⟩, rfl⟩ (.never ⟨rfl, rfl, rfl, rfl⟩ (fun h => by rw [hs] at h; cases h))
        names := by decide
        wires := by decide
        types := by
          intro f hf named _
          simp only [Q, List.mem_cons, List.not_mem_nil, or_false] at hf
          rcases hf with rfl | rfl
          · exact .scalar .prim
          · exact .list (.scalar .prim)
        notTransparent := rfl
        noHook := by intro p h; cases h
        noClassCustom := ⟨rfl, rfl⟩
        mroSelf := by simp [Q]
        kwLast := by simp [Q]
        kwTuple := by
          intro _ f hf
          simp only [Q, List.mem_cons, List.not_mem_nil, or_false] at hf
          rcases hf with rfl | rfl <;> exact ⟨rfl, rfl⟩ }
  wrappers := by
    intro c cd hc ht
    rcases env_cases hc with ⟨rfl, rfl⟩ | ⟨rfl, rfl⟩ <;> cases ht
  noGlobal := ⟨rfl, rfl⟩

theorem q_ty : HasTy env (.cls "Q") (.inst "Q" q) := by
  refine .inst (cd := Q) rfl rfl ?_
  intro p hp
  simp only [Q, q, List.zip_cons_cons, List.zip_nil_right, List.mem_cons, List.not_mem_nil, or_false] at hp
  rcases hp with rfl | rfl
  · exact .str
  · refine .list (fun x hx => ?_)
    rw [List.mem_singleton.1 hx]
    exact .float

theorem qVariant : Variant env ts "Q" Q where
  notOpt := rfl
  find := rfl
  dist := by
    refine ⟨?_, ?_⟩
    · intro t ht
      simp only [ts, List.mem_cons, List.not_mem_nil, or_false] at ht
      rcases ht with rfl | rfl
      · exact ⟨"P", P, rfl, rfl⟩
      · exact ⟨"Q", Q, rfl, rfl⟩
    · intro c c' cd cd' _ _ hc hc' hn
      rcases env_cases hc with ⟨rfl, rfl⟩ | ⟨rfl, rfl⟩ <;> rcases env_cases hc' with ⟨rfl, rfl⟩ | ⟨rfl, rfl⟩
      · rfl
      · simp [P, Q] at hn
      · simp [P, Q] at hn
      · rfl
  cls := rfl
  opaq := rfl
  own := ⟨Q, [.cls "P"], [], rfl, by simp [Q], rfl, by
    intro t ht
    simp only [List.mem_cons, List.not_mem_nil, or_false] at ht
    subst ht
    refine ⟨.cls, fun attrs h => ?_⟩
    cases h with
    | cls hc hm => injection hc with hc; subst hc; simp [Q] at hm⟩
  glob := ⟨by simp [env], by simp [env]⟩

theorem qInternal : TagOk env ts "Q" Q (.internal "type") := by
  have hre : ∀ c', FlatReach env "Q" c' → c' = "Q" := by
    intro c' h
    induction h with
    | refl => rfl
    | step h1 h2 h3 h4 ih =>
      subst ih
      injection h2 with h2
      subst h2
      simp only [Q, List.mem_cons, List.not_mem_nil, or_false] at h3
      rcases h3 with rfl | rfl <;> cases h4
  have hQ : ∀ c cd, c = "Q" → env.cls c = some cd → cd = Q := by
    intro c cd h1 h2
    subst h1
    injection h2 with h2
    exact h2.symm
  refine .internal ?_ ?_ ?_ (by decide)
  · intro c' cd h1 h2
    rw [hQ c' cd (hre c' h1) h2]
    refine ⟨rfl, fun f hf => ?_⟩
    simp only [Q, List.mem_cons, List.not_mem_nil, or_false] at hf
    rcases hf with rfl | rfl <;> exact ⟨.inl rfl, rfl, (by intro h; cases h), (by intro ch h; cases h)⟩
  · intro c' cd h1 h2
    rw [hQ c' cd (hre c' h1) h2]
    rfl
  · intro hk
    generalize hk' : "type" = k at hk
    cases hk with
    | wire h1 h2 h3 h4 =>
      rw [hQ _ _ rfl h1] at h2 hk'
      simp only [Q, List.mem_cons, List.not_mem_nil, or_false] at h2
      rcases h2 with rfl | rfl <;> revert hk' <;> decide
    | alias h1 h2 h3 h4 h5 =>
      rw [hQ _ _ rfl h1] at h2
      simp only [Q, List.mem_cons, List.not_mem_nil, or_false] at h2
      rcases h2 with rfl | rfl <;> exact absurd rfl h4
    | child h1 h2 h3 h4 h5 =>
      rw [hQ _ _ rfl h1] at h2
      simp only [Q, List.mem_cons, List.not_mem_nil, or_false] at h2
      rcases h2 with rfl | rfl <;> cases h4
    | probe h1 h2 h3 h4 h5 =>
      rw [hQ _ _ rfl h1] at h2
      simp only [Q, List.mem_cons, List.not_mem_nil, or_false] at h2
      rcases h2 with rfl | rfl <;> cases h4

/-- Every class has the number one: nothing is read again. -/
theorem ranked : Ranked env true (fun _ _ => 1) := by
  constructor
  · intro c cd f j hc ht hf
    rcases env_cases hc with ⟨rfl, rfl⟩ | ⟨rfl, rfl⟩ <;> cases ht
  · intro c cd f j hc ht hf hfl
    rcases env_cases hc with ⟨rfl, rfl⟩ | ⟨rfl, rfl⟩
    · simp only [P, List.mem_cons, List.not_mem_nil, or_false] at hf
      subst hf; cases hfl
    · simp only [Q, List.mem_cons, List.not_mem_nil, or_false] at hf
      rcases hf with rfl | rfl <;> cases hfl
  · intro c cd f hc ht hf hn
    rcases env_cases hc with ⟨rfl, rfl⟩ | ⟨rfl, rfl⟩
    · simp only [P, List.mem_cons, List.not_mem_nil, or_false] at hf
      subst hf; decide
    · simp only [Q, List.mem_cons, List.not_mem_nil, or_false] at hf
      rcases hf with rfl | rfl <;> decide
  · intro c cd f h
    cases h

theorem ends : Ends env where
  wf := C53_rank ranked
  unions := by
    intro c ts h
    exfalso
    obtain ⟨c, cd, f, hc, hf, hw⟩ := h
    rcases env_cases hc with ⟨rfl, rfl⟩ | ⟨rfl, rfl⟩
    · simp only [P, List.mem_cons, List.not_mem_nil, or_false] at hf
      subst hf; cases hw
    · simp only [Q, List.mem_cons, List.not_mem_nil, or_false] at hf
      rcases hf with rfl | rfl
      · cases hw
      · cases hw with
        | list h => cases h
  transp := by
    intro c cd f hc ht hf
    rcases env_cases hc with ⟨rfl, rfl⟩ | ⟨rfl, rfl⟩ <;> cases ht

theorem members : ∀ t ∈ ts, ∃ c cd, ClassMember env t c cd := by
  intro t ht
  simp only [ts, List.mem_cons, List.not_mem_nil, or_false] at ht
  rcases ht with rfl | rfl
  · exact ⟨"P", P, rfl, rfl, by simp [P], by simp [env], by simp [env]⟩
  · exact ⟨"Q", Q, rfl, rfl, by simp [Q], by simp [env], by simp [env]⟩

theorem pRequires : Requires env "P" P { name := "x", ty := .prim .int } :=
  ⟨rfl, rfl, by simp [P], rfl, rfl, rfl, (by intro h; cases h with | unread h => cases h), .inl rfl, ⟨by simp [env], by simp [env]⟩⟩

theorem qUntagged : TagOk env ts "Q" Q .untagged := by
  refine .untagged (pre := [.cls "P"]) (post := []) ends rfl members ?_
  intro c' hc'
  simp only [List.mem_cons, List.not_mem_nil, or_false, Ty.cls.injEq] at hc'
  subst hc'
  exact ⟨P, _, pRequires, by decide⟩

/-- Neither `P` nor its key: the union reads it as `Q`. -/
example : ∃ n, fromDict env { tagging := .untagged } n (.union ts) (.dict .plain [(.str "y", .str "s"), (.str "m", .list []), (.str "z", .none)]) =
    .ok (.inst "Q" [("y", .str "s"), ("m", .list [])]) := by
  refine C26_required_partial (pre := [.cls "P"]) (post := []) (c := "Q") ends rfl rfl rfl members rfl ?_ ⟨9, rfl⟩
  intro c' hc'
  simp only [List.mem_cons, List.not_mem_nil, or_false, Ty.cls.injEq] at hc'
  subst hc'
  exact ⟨P, _, pRequires, by decide⟩

/-- With `P`'s key it is read as `P`, the first member that fits, though it is all of a `Q` too. -/
example : ∃ n, fromDict env { tagging := .untagged } n (.union ts) (.dict .plain [(.str "y", .str "s"), (.str "m", .list []), (.str "x", .int 1)]) =
    .ok (.inst "P" [("x", .int 1)]) := by
  refine (C26_classes_partial ends rfl rfl rfl members (by intro c as h; cases h)).2 ⟨[], "P", [.cls "Q"], rfl, ⟨9, rfl⟩, ?_⟩
  intro c' hc'
  cases hc'

/-- A codec that gives back one value. -/
def fixed (w : Val) : Codec := ⟨fun _ => .ok "text", fun _ => .ok w⟩

example : ∃ (K : Codec) (s : String), Ev (fun n => toJson env K { c := some (.union ts), tagging := .internal "type", skipNone := true } n (.inst "Q" q) = .ok s ∧
    fromJson env K n (.union ts) s true (.internal "type") = .ok (.inst "Q" q)) := by
  obtain ⟨_, _, h⟩ := C80_json_partial (env := env) (fo := { c := some (.union ts), tagging := .internal "type", skipNone := true }) (cn := true) Ex.numText
    qVariant qInternal rfl (envOk rfl) q_ty
  exact ⟨_, h (fixed _) ⟨_, rfl, rfl⟩⟩

example : ∃ (K : Codec) (s : String), Ev (fun n => toYaml env K { c := some (.union ts), tagging := .adjacent "t" "c" } n (.inst "Q" q) = .ok s ∧
    fromYaml env K n (.union ts) s true (.adjacent "t" "c") = .ok (.inst "Q" q)) := by
  obtain ⟨_, _, h⟩ := C80_yaml_partial (env := env) (fo := { c := some (.union ts), tagging := .adjacent "t" "c" }) (cn := true)
    qVariant (.adjacent (by decide)) rfl (envOk rfl) q_ty
  exact ⟨_, h (fixed _) ⟨_, rfl, rfl⟩⟩

example : ∃ (K : Codec) (s : String), Ev (fun n => toJson env K { c := some (.union ts), tagging := .untagged } n (.inst "Q" q) = .ok s ∧
    fromJson env K n (.union ts) s false .untagged = .ok (.inst "Q" q)) := by
  obtain ⟨_, _, h⟩ := C80_json_partial (env := env) (fo := { c := some (.union ts), tagging := .untagged }) (cn := false) Ex.numText
    qVariant qUntagged rfl (envOk rfl) q_ty
  exact ⟨_, h (fixed _) ⟨_, rfl, rfl⟩⟩

example : ∃ (K : Codec) (s : String), Ev (fun n => toToml env K n (.inst "Q" q) { c := some (.union ts) } = .ok s ∧
    fromToml env K n (.union ts) s = .ok (.inst "Q" q)) := by
  obtain ⟨_, _, h⟩ := C80_toml_pickle_partial (env := env) (fo := { c := some (.union ts) }) qVariant .external rfl (envOk rfl) q_ty
  exact ⟨_, (h (fixed _) ⟨_, rfl, rfl⟩).1⟩

example : ∃ (K : MpCodec) (s : String), Ev (fun n => toMsgpack env K { c := some (.union ts) } n (.inst "Q" q) = .ok s ∧
    fromMsgpack env K true n (.union ts) s = .ok (.inst "Q" q)) := by
  obtain ⟨kvs, _, h⟩ := C80_msgpack_partial (env := env) (mo := { c := some (.union ts) }) qVariant rfl rfl rfl (envOk rfl) q_ty
  exact ⟨_, h ⟨fun _ => .ok "text", fun _ _ => .ok "text", fun _ => .ok (.val (mpWire (.dict .plain [(.str "Q", .dict .plain kvs)])))⟩ ⟨_, rfl, rfl⟩⟩

/-- `class T: s: set[int]; o: Optional[int]`. -/
def T : ClassDef := { name := "T", mro := ["T"], fields := [{ name := "s", ty := .set .set (.prim .int) }, { name := "o", ty := .union [.prim .int, .none] }] }
def envT : Env := { W := Ex.WT, P := Ex.P, classes := [("P", P), ("T", T)], enums := [] }
def tT : List Ty := [.cls "P", .cls "T"]
def t : Val := .inst "T" [("s", .set false [.int 1]), ("o", .none)]

/-- What the union's function hands to the library. -/
def tDict : Val := .dict .plain [(.str "T", .dict .plain [(.str "s", .set false [.int 1]), (.str "o", .none)])]

theorem t_written {so : SeOpts} (hu : so.c = some (.union tT)) (hg : so.tagging = .external) {n w} (h : toDict envT so n t = .ok w) : w = tDict := by
  obtain ⟨re, cv, sn, c, tg⟩ := so
  cases hu
  cases hg
  have : toDict envT ⟨re, cv, sn, some (.union tT), .external⟩ 9 t = .ok tDict := rfl
  exact toDict_det h this

theorem tVariant : Variant envT tT "T" T where
  notOpt := rfl
  find := rfl
  dist := by
    refine ⟨?_, ?_⟩
    · intro t ht
      simp only [tT, List.mem_cons, List.not_mem_nil, or_false] at ht
      rcases ht with rfl | rfl
      · exact ⟨"P", P, rfl, rfl⟩
      · exact ⟨"T", T, rfl, rfl⟩
    · intro c c' cd cd' h h' hc hc' hn
      simp only [tT, List.mem_cons, List.not_mem_nil, or_false, Ty.cls.injEq] at h h'
      rcases h with rfl | rfl <;> rcases h' with rfl | rfl
      · rfl
      · injection hc with hc; injection hc' with hc'; subst hc; subst hc'; simp [P, T] at hn
      · injection hc with hc; injection hc' with hc'; subst hc; subst hc'; simp [P, T] at hn
      · rfl
  cls := rfl
  opaq := rfl
  own := ⟨T, [.cls "P"], [], rfl, by simp [T], rfl, by
    intro t ht
    simp only [List.mem_cons, List.not_mem_nil, or_false] at ht
    subst ht
    refine ⟨.cls, fun attrs h => ?_⟩
    cases h with
    | cls hc hm => injection hc with hc; subst hc; simp [T] at hm⟩
  glob := ⟨by simp [envT], by simp [envT]⟩

end C80

/-- **C80** is false for sets: `to_json(T({1}, None))` hands a list to the library, `to_json(T({1}, None), cls=Union[P, T])` the set,
whatever `convert_sets` says; JSON libraries refuse it. -/
theorem C80_false_sets : ∃ (env : Env) (ts : List Ty) (v : Val), Variant env ts "T" T ∧
    ∀ K : Codec, toJson env K {} 9 v = liftP (K.enc (.dict .plain [(.str "s", .list [.int 1]), (.str "o", .none)])) ∧
      ∀ (fo : FmtOpts), fo.c = some (.union ts) → fo.tagging = .external → ∀ n s, toJson env K fo n v = .ok s →
        K.enc (.dict .plain [(.str "T", .dict .plain [(.str "s", .set false [.int 1]), (.str "o", .none)])]) = .ok s := by
  refine ⟨envT, tT, t, tVariant, fun K => ⟨rfl, ?_⟩⟩
  intro fo hu hg n s h
  unfold toJson encodeDict at h
  split at h
  · rename_i w hw
    rw [t_written hu hg hw] at h
    revert h
    show liftP (K.enc tDict) = _ → K.enc tDict = _
    cases K.enc tDict with
    | ok x => intro h; cases h; rfl
    | error e => intro h; cases h
  · cases h

/-- **C80** is false for None: `to_toml` leaves None out, with `cls=Union[P, T]` it hands None to the library, which has no null. -/
theorem C80_false_none : ∃ (env : Env) (ts : List Ty) (v : Val), Variant env ts "T" T ∧
    ∀ K : Codec, toToml env K 9 v = liftP (K.enc (.dict .plain [(.str "s", .list [.int 1])])) ∧
      toToml env K 9 v { c := some (.union ts), skipNone := true } =
        liftP (K.enc (.dict .plain [(.str "T", .dict .plain [(.str "s", .set false [.int 1]), (.str "o", .none)])])) :=
  ⟨envT, tT, t, tVariant, fun _ => ⟨rfl, rfl⟩⟩

end Verif.Props
