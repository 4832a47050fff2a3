import Verif.Lemmas.AssetMeta
/-!
C72: a Stellar Asset Contract is initialized once, with the well-formed asset its address was derived from, and its name,
symbol and decimals describe that asset and no other.
-/
namespace Soroban.Props
open Soroban.AssetMeta Soroban.AssetMeta.Spec

/-- If initialization succeeds, the contract had not been initialized, the bytes are the XDR form of a well-formed asset and the
contract has the address of that asset. Afterwards the contract reports that asset, its name, its symbol and seven decimals; its
administrator is the issuer, and for the native asset the administrator is left as it was. -/
theorem C72_init {idOf : Asset → Nat} {cur : Nat} {st st' : Inst} {bytes : List Nat} (hb : ∀ x ∈ bytes, x < 256)
    (h : initAsset idOf cur st bytes = .ok st') :
    st.info = none ∧ ∃ a nm sy, bytes = xdr a ∧ Valid a ∧ idOf a = cur ∧ readAsset st' = .ok a ∧ Describes a nm sy ∧
      name st' = .ok nm ∧ symbol st' = .ok sy ∧ st'.metadata.map (·.decimal) = some 7 ∧
      st'.admin = (issuer a).orElse (fun _ => st.admin) := by
  unfold initAsset at h
  cases hi : st.info with
  | some i => rw [hi] at h; exact nomatch h
  | none =>
    rw [hi, if_neg (by decide)] at h
    refine ⟨rfl, ?_⟩
    cases hx : assetFromXdr bytes with
    | none => rw [hx] at h; exact nomatch h
    | some a =>
      rw [hx] at h
      obtain ⟨_, h1, h2⟩ := bind_ok.mp h
      obtain ⟨e, hs⟩ := assetFromXdr_sound hb hx
      have hv := (validateAsset_iff hs).mp h1
      by_cases hc : cur ≠ idOf a
      · rw [if_pos hc] at h2; exact nomatch h2
      · rw [if_neg hc] at h2
        obtain ⟨st1, nm, sy, k1, _, k3, k4, k5, k6, k7, k8⟩ := setMetadata_write st hv
        rw [k1] at h2
        cases Except.ok.inj h2
        exact ⟨a, nm, sy, e, hv, (Classical.not_not.mp hc).symm, k4, k8, k5, k6, k7, k3⟩

/-- A contract that has not been initialized can be, with the asset its address was derived from. -/
theorem C72_init_succeeds {idOf : Asset → Nat} {st : Inst} {a : Asset} (hn : st.info = none) (hv : Valid a) :
    ∃ st', initAsset idOf (idOf a) st (xdr a) = .ok st' := by
  obtain ⟨st1, nm, sy, k1, _⟩ := setMetadata_write st hv
  refine ⟨st1, ?_⟩
  unfold initAsset
  rw [hn, if_neg (by decide), assetFromXdr_xdr (valid_sizes hv)]
  exact bind_ok.mpr ⟨(), (validateAsset_iff (valid_sizes hv)).mpr hv, by rw [if_neg (fun h => h rfl)]; exact k1⟩

/-- Once initialization has succeeded every further attempt fails with error 3, already initialized. -/
theorem C72_once {idOf idOf' : Asset → Nat} {cur cur' : Nat} {st st' : Inst} {bytes : List Nat} (hb : ∀ x ∈ bytes, x < 256)
    (h : initAsset idOf cur st bytes = .ok st') (bytes' : List Nat) : initAsset idOf' cur' st' bytes' = .error (.contract 3) := by
  obtain ⟨_, a, nm, sy, _, _, _, hr, _⟩ := C72_init hb h
  unfold initAsset
  cases hi : st'.info with
  | some i => rfl
  | none => rw [readAsset, readInfo, hi] at hr; exact nomatch hr

/-- Two contracts that report the same name hold the same asset. -/
theorem C72_name_identifies {idOf idOf' : Asset → Nat} {c c' : Nat} {s s' t t' : Inst} {b b' nm : List Nat}
    (hb : ∀ x ∈ b, x < 256) (hb' : ∀ x ∈ b', x < 256) (h : initAsset idOf c s b = .ok t) (h' : initAsset idOf' c' s' b' = .ok t')
    (hn : name t = .ok nm) (hn' : name t' = .ok nm) : readAsset t = readAsset t' := by
  obtain ⟨_, a, n1, y1, _, _, _, r1, d1, m1, _⟩ := C72_init hb h
  obtain ⟨_, a', n2, y2, _, _, _, r2, d2, m2, _⟩ := C72_init hb' h'
  rw [hn] at m1
  rw [hn'] at m2
  cases Except.ok.inj m1
  cases Except.ok.inj m2
  rw [r1, r2, describes_inj d1 d2]

/-- The rendering of codes tells any two codes apart whose zeros are all at the end, whatever their other characters are, also
across the two sizes. -/
theorem C72_render {a b s : List Nat} (ha : PaddedCode a) (hb : PaddedCode b) (h : renderCode a = .ok s)
    (h' : renderCode b = .ok s) : a = b := renderCode_inj ha hb h h'

/-- Codes are rendered as SEP-11 says: each byte up to the zeros at the end as text, where long codes keep at least five bytes. -/
theorem C72_render_text {n k : Nat} {text : List Nat} (hn : n = 4 ∨ n = 12) (ht : ∀ c ∈ text, c ≠ 0 ∧ c < 256)
    (hl : text.length + k = n) :
    renderCode (text ++ List.replicate k 0) =
      .ok ((text ++ List.replicate ((if n = 12 then 5 else 0) - text.length) 0).flatMap written) := by
  have e : (text ++ List.replicate k 0).length = n := by simp [hl]
  unfold renderCode
  rw [if_neg (by omega), e, renderLoop_text hn text 0 ht (by omega), Nat.zero_add]

/-- The code `A`, byte 255, `:` of an asset with twelve bytes is shown as `A\xff\x3a\x00\x00`. -/
example : renderCode ([65, 255, 58] ++ List.replicate 9 0) = .ok ("A\\xff\\x3a\\x00\\x00".toList.map Char.toNat) :=
  (C72_render_text (Or.inr rfl) (by decide) rfl).trans rfl

/-- The condition on zeros is needed: these two codes are rendered alike. Validation refuses both. -/
theorem C72_render_sharp : renderCode [0, 88, 76, 77] = renderCode [0, 0, 0, 0] ∧
    ¬ Valid (.alpha4 [0, 88, 76, 77] 0) ∧ ¬ Valid (.alpha4 [0, 0, 0, 0] 0) := by
  have key : ∀ c, validateAsset (.alpha4 c 0) ≠ .ok () → c.length = 4 → ¬ Valid (.alpha4 c 0) := by
    intro c hc hl hv
    exact hc ((validateAsset_iff (a := .alpha4 c 0) ⟨hl, by decide⟩).mpr hv)
  refine ⟨rfl, key _ ?_ rfl, key _ ?_ rfl⟩ <;> (intro h; exact nomatch h)

/-! ### Cases that meet the hypotheses -/

/-- The asset `USDC` of an issuer. -/
def usdc : Asset := .alpha4 [85, 83, 68, 67] 5

example : Valid usdc := ⟨by decide, [85, 83, 68, 67], by decide, by decide, by unfold Alnum; decide, rfl⟩

example : ∃ st', initAsset (fun a => if a = usdc then 9 else 0) 9 ⟨none, none, none⟩ (xdr usdc) = .ok st' ∧
    st'.admin = some (.account 5) := ⟨_, rfl, rfl⟩

/-- A long code with four characters is refused. -/
example : ∀ st', initAsset (fun _ => 9) 9 ⟨none, none, none⟩ (xdr (.alpha12 ([85, 83, 68, 67] ++ List.replicate 8 0) 5)) ≠ .ok st' := by
  intro st' h; exact nomatch h

example : PaddedCode [88, 58, 76, 77] := ⟨.inl rfl, by decide, [88, 58, 76, 77], 0, rfl, by decide⟩

/-- Some of the pairs of the repository's own test (metadata.rs:54-127 `test_render_sep0011_asset_code`). -/
def rendersAs (code : List Nat) (s : String) : Bool :=
  match renderCode code with | .ok t => decide (t = s.toList.map Char.toNat) | .error _ => false

example : rendersAs [0, 0, 0, 0] "" = true := by decide +kernel
example : rendersAs [121, 88, 76, 77] "yXLM" = true := by decide +kernel
example : rendersAs [1, 88, 76, 77] "\\x01XLM" = true := by decide +kernel
example : rendersAs [88, 58, 76, 77] "X\\x3aLM" = true := by decide +kernel
example : rendersAs [88, 92, 76, 77] "X\\x5cLM" = true := by decide +kernel
example : rendersAs [0, 88, 76, 77, 0, 0, 0, 0, 0, 0, 0, 0] "\\x00XLM\\x00" = true := by decide +kernel
example : rendersAs [88, 76, 77, 76, 88, 65, 0, 0, 0, 0, 0, 0] "XLMLXA" = true := by decide +kernel

end Soroban.Props
