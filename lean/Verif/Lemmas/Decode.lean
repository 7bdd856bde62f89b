import Verif.Spec.Block
import Verif.Lemmas.OsmData
/-! # Lemmas about decoding arbitrary (also malformed) blocks -/
namespace OsmIo
open Wire Spec

theorem mapM_ok_mem {α β : Type} {f : α → Out β} {as : List α} {bs : List β} (h : as.mapM f = .ok bs) :
    ∀ b ∈ bs, ∃ a ∈ as, f a = .ok b := by
  induction as generalizing bs with
  | nil => simp at h; subst h; simp
  | cons a as ih =>
    simp only [List.mapM_cons, Out.bind_eq_ok, Out.pure_eq] at h
    obtain ⟨b, hb, bs', hbs, he⟩ := h
    injection he with he; subst he
    intro c hc
    simp at hc
    rcases hc with rfl | hc
    · exact ⟨a, by simp, hb⟩
    · obtain ⟨a', h1, h2⟩ := ih hbs c hc
      exact ⟨a', by simp [h1], h2⟩

theorem strAt_ok {tbl : List String} {i : Nat} {s : String} (h : strAt tbl i = .ok s) : s ∈ tbl := by
  unfold strAt at h
  cases h' : tbl[i]? with
  | none => simp [h'] at h
  | some t => simp [h'] at h; subst h; exact List.mem_of_getElem? h'

/-- What is needed of every decoded element, from the properties of its group. -/
theorem decode_forall {P : Element → Prop} {p : Pb.PrimitiveBlock} {es : List Element}
    (h : fromPrimitiveBlock p = .ok es)
    (hd : ∀ tbl, (p.stringtable.s.mapM fun b => Out.unwrap (strOf b)) = .ok tbl → ∀ g ∈ p.primitivegroup, ∀ d, g.dense = some d →
      ∀ gr dg la lo es, readDenseGo tbl gr dg la lo d 0 d.id (DenseState.init d) = .ok es → ∀ e ∈ es, P e)
    (hn : ∀ tbl, (p.stringtable.s.mapM fun b => Out.unwrap (strOf b)) = .ok tbl → ∀ g ∈ p.primitivegroup, ∀ n ∈ g.nodes,
      ∀ gr dg la lo e, readNode tbl gr dg la lo n = .ok e → P e)
    (hw : ∀ tbl, (p.stringtable.s.mapM fun b => Out.unwrap (strOf b)) = .ok tbl → ∀ g ∈ p.primitivegroup, ∀ n ∈ g.ways,
      ∀ dg e, readWay tbl dg n = .ok e → P e)
    (hr : ∀ tbl, (p.stringtable.s.mapM fun b => Out.unwrap (strOf b)) = .ok tbl → ∀ g ∈ p.primitivegroup, ∀ n ∈ g.relations,
      ∀ dg e, readRelation tbl dg n = .ok e → P e) : ∀ e ∈ es, P e := by
  simp only [fromPrimitiveBlock, Out.bind_eq_ok] at h
  obtain ⟨tbl, ht, groups, hg, he⟩ := h
  injection he with he; subst he
  intro e he
  simp only [List.mem_flatten] at he
  obtain ⟨l, hl, he⟩ := he
  obtain ⟨g, hgm, hg2⟩ := mapM_ok_mem hg l hl
  simp only [readGroup, Out.bind_eq_ok] at hg2
  obtain ⟨a, ha, b, hb, c, hc, d, hdd, hlast⟩ := hg2
  split at hlast
  · injection hlast with hlast; subst hlast
    simp only [List.mem_append] at he
    rcases he with ((he | he) | he) | he
    · cases hde : g.dense with
      | none => simp [readDense, hde] at ha; subst ha; simp at he
      | some dn =>
        rw [hde] at ha
        exact hd tbl ht g hgm dn hde _ _ _ _ a ha e he
    · obtain ⟨n, h1, h2⟩ := mapM_ok_mem hb e he
      exact hn tbl ht g hgm n h1 _ _ _ _ e h2
    · obtain ⟨n, h1, h2⟩ := mapM_ok_mem hc e he
      exact hw tbl ht g hgm n h1 _ e h2
    · obtain ⟨n, h1, h2⟩ := mapM_ok_mem hdd e he
      exact hr tbl ht g hgm n h1 _ e h2
  · cases hlast

theorem readKeyVals_strings {tbl : List String} : ∀ {kv tags r}, readKeyVals tbl kv = .ok (tags, r) →
    ∀ t ∈ tags, t.k ∈ tbl ∧ t.v ∈ tbl := by
  intro kv
  fun_induction readKeyVals tbl kv with
  | case1 => intro tags r h; simp at h; simp [h.1]
  | case2 => intro tags r h; simp at h; simp [h.1]
  | case3 => intro tags r h; simp at h
  | case4 k hk v rest' ih =>
    intro tags r h
    simp only [Out.bind_eq_ok] at h
    obtain ⟨a, ha, b, hb, ⟨ts, r'⟩, hts, he⟩ := h
    simp at he
    obtain ⟨rfl, rfl⟩ := he
    intro t ht
    simp at ht
    rcases ht with rfl | ht
    · exact ⟨strAt_ok ha, strAt_ok hb⟩
    · exact ih hts t ht

theorem readTags_strings {tbl : List String} : ∀ {ks vs tags}, readTags tbl ks vs = .ok tags →
    ∀ t ∈ tags, t.k ∈ tbl ∧ t.v ∈ tbl := by
  intro ks
  induction ks with
  | nil => intro vs tags h; simp [readTags] at h; subst h; simp
  | cons k ks ih =>
    intro vs tags h
    simp only [readTags, Out.bind_eq_ok] at h
    obtain ⟨a, ha, h⟩ := h
    cases vs with
    | nil => simp at h
    | cons v vs =>
      simp only [Out.bind_eq_ok] at h
      obtain ⟨b, hb, ts, hts, he⟩ := h
      injection he with he; subst he
      intro t ht
      simp at ht
      rcases ht with rfl | ht
      · exact ⟨strAt_ok ha, strAt_ok hb⟩
      · exact ih hts t ht

theorem readInfo_user {tbl : List String} {dg : Int32} {info : Option Pb.Info} {m : Meta} (h : readInfo tbl dg info = .ok m) :
    m.user = "" ∨ m.user ∈ tbl := by
  cases info with
  | none => simp [readInfo] at h; left; rw [← h]
  | some i =>
    simp only [readInfo, Out.bind_eq_ok] at h
    obtain ⟨u, hu, he⟩ := h
    injection he with he; subst he
    exact .inr (strAt_ok hu)

theorem mkMember_role {t : Int32} {d : MemberData} {m : Member} (h : mkMember t d = .ok m) : m.role = d.role := by
  unfold mkMember at h
  split_ifs at h <;> injection h with h <;> subst h <;> rfl

theorem readMembers_strings {tbl : List String} : ∀ {ids roles types last ms}, readMembers tbl last ids roles types = .ok ms →
    ∀ m ∈ ms, m.role ∈ tbl := by
  intro ids
  induction ids with
  | nil => intro roles types last ms h; simp [readMembers] at h; subst h; simp
  | cons d ds ih =>
    intro roles types last ms h
    simp only [readMembers] at h
    cases roles with
    | nil => simp at h
    | cons r rs =>
      simp only [Out.bind_eq_ok] at h
      obtain ⟨role, hr, h⟩ := h
      cases types with
      | nil => simp at h
      | cons t ts =>
        simp only [Out.bind_eq_ok] at h
        obtain ⟨m, hm, rest, hrest, he⟩ := h
        injection he with he; subst he
        intro m' hm'
        simp at hm'
        rcases hm' with rfl | hm'
        · rw [mkMember_role hm]; exact strAt_ok hr
        · exact ih hrest m' hm'

/-- One step of the dense loop. -/
theorem readDenseGo_forall {P : Node → Prop} {tbl : List String} {gr : Int64} {dg : Int32} {la lo : Int64} {d : Pb.DenseNodes}
    {S : DenseState → Prop}
    (hstep : ∀ i s s' v u tags kv, S s → readDenseInfo tbl dg d.denseinfo i s = .ok (s', v, u) → readKeyVals tbl s'.keyVals = .ok (tags, kv) →
      S { s' with keyVals := kv } ∧ ∀ c, P { id := s'.last_id, version := v, coordinate := c, timestamp := s'.timestamp, changeset := s'.last_changeset, uid := s'.uid, user := u, visible := s'.visible, tags })
    (hS : ∀ s a b c, S s → S { s with last_id := a, last_lat := b, last_lon := c }) :
    ∀ ids i s es, S s → readDenseGo tbl gr dg la lo d i ids s = .ok es → ∀ e ∈ es, ∃ n, e = .node n ∧ P n := by
  intro ids
  induction ids with
  | nil => intro i s es _ h; simp [readDenseGo] at h; subst h; simp
  | cons id ids ih =>
    intro i s es hs h
    simp only [readDenseGo, Out.bind_eq_ok] at h
    obtain ⟨dlat, h1, dlon, h2, ⟨s', v, u⟩, h3, ⟨tags, kv⟩, h4, rest, h5, he⟩ := h
    injection he with he; subst he
    obtain ⟨hS', hP⟩ := hstep i _ s' v u tags kv (hS s _ _ _ hs) h3 h4
    intro e he
    simp at he
    rcases he with rfl | he
    · exact ⟨_, rfl, hP _⟩
    · exact ih (i + 1) _ rest hS' h5 e he

end OsmIo
