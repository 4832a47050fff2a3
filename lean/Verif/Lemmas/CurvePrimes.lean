import Verif.Lemmas.Primes
import Verif.Model.Curves
import Mathlib.NumberTheory.LegendreSymbol.QuadraticReciprocity
/-!
The moduli of the fields of BLS12-381 and BN254 are prime, and -1 is not a square in the fields of coordinates.
-/
namespace Soroban.Curves
open Soroban.Primes

def blsPCert : List Step :=
  [ ⟨3, 2, [(2, 1)]⟩,
    ⟨5, 2, [(2, 2)]⟩,
    ⟨11, 2, [(2, 1), (5, 1)]⟩,
    ⟨23, 5, [(2, 1), (11, 1)]⟩,
    ⟨47, 5, [(2, 1), (23, 1)]⟩,
    ⟨13, 2, [(2, 2), (3, 1)]⟩,
    ⟨53, 2, [(2, 2), (13, 1)]⟩,
    ⟨10177, 7, [(2, 6), (3, 1), (53, 1)]⟩,
    ⟨17, 3, [(2, 4)]⟩,
    ⟨47737, 5, [(2, 3), (3, 3), (13, 1), (17, 1)]⟩,
    ⟨859267, 2, [(2, 1), (3, 2), (47737, 1)]⟩,
    ⟨7, 3, [(2, 1), (3, 1)]⟩,
    ⟨43, 3, [(2, 1), (3, 1), (7, 1)]⟩,
    ⟨97, 5, [(2, 5), (3, 1)]⟩,
    ⟨449, 3, [(2, 6), (7, 1)]⟩,
    ⟨609743, 5, [(2, 1), (7, 1), (97, 1), (449, 1)]⟩,
    ⟨52437899, 2, [(2, 1), (43, 1), (609743, 1)]⟩,
    ⟨89, 3, [(2, 3), (11, 1)]⟩,
    ⟨941, 2, [(2, 2), (5, 1), (47, 1)]⟩,
    ⟨947, 2, [(2, 1), (11, 1), (43, 1)]⟩,
    ⟨7577, 3, [(2, 3), (947, 1)]⟩,
    ⟨67, 2, [(2, 1), (3, 1), (11, 1)]⟩,
    ⟨181, 2, [(2, 2), (3, 2), (5, 1)]⟩,
    ⟨1087, 3, [(2, 1), (3, 1), (181, 1)]⟩,
    ⟨4349, 2, [(2, 2), (1087, 1)]⟩,
    ⟨582767, 5, [(2, 1), (67, 1), (4349, 1)]⟩,
    ⟨9272813673901, 2, [(2, 2), (3, 1), (5, 2), (7, 1), (7577, 1), (582767, 1)]⟩,
    ⟨1928745244171409, 3, [(2, 4), (13, 1), (9272813673901, 1)]⟩,
    ⟨7259797099061183477, 2, [(2, 2), (941, 1), (1928745244171409, 1)]⟩,
    ⟨2584487767265781317813, 2, [(2, 2), (89, 1), (7259797099061183477, 1)]⟩,
    ⟨19, 2, [(2, 1), (3, 2)]⟩,
    ⟨191, 19, [(2, 1), (5, 1), (19, 1)]⟩,
    ⟨1686913, 10, [(2, 7), (3, 1), (23, 1), (191, 1)]⟩,
    ⟨475709467, 2, [(2, 1), (3, 1), (47, 1), (1686913, 1)]⟩,
    ⟨31, 3, [(2, 1), (3, 1), (5, 1)]⟩,
    ⟨29, 2, [(2, 2), (7, 1)]⟩,
    ⟨233, 3, [(2, 3), (29, 1)]⟩,
    ⟨467, 2, [(2, 1), (233, 1)]⟩,
    ⟨137, 3, [(2, 3), (17, 1)]⟩,
    ⟨2741, 2, [(2, 2), (5, 1), (137, 1)]⟩,
    ⟨16447, 3, [(2, 1), (3, 1), (2741, 1)]⟩,
    ⟨409, 21, [(2, 3), (3, 1), (17, 1)]⟩,
    ⟨1453, 2, [(2, 2), (3, 1), (11, 2)]⟩,
    ⟨43591, 11, [(2, 1), (3, 1), (5, 1), (1453, 1)]⟩,
    ⟨927093389, 3, [(2, 2), (13, 1), (409, 1), (43591, 1)]⟩,
    ⟨64881703735777, 5, [(2, 5), (3, 7), (927093389, 1)]⟩,
    ⟨92691255082156974996979, 3, [(2, 1), (3, 1), (31, 1), (467, 1), (16447, 1), (64881703735777, 1)]⟩,
    ⟨281, 3, [(2, 3), (5, 1), (7, 1)]⟩,
    ⟨3373, 5, [(2, 2), (3, 1), (281, 1)]⟩,
    ⟨151, 6, [(2, 1), (3, 1), (5, 2)]⟩,
    ⟨8101, 6, [(2, 2), (3, 4), (5, 2)]⟩,
    ⟨51376543, 3, [(2, 1), (3, 1), (7, 1), (151, 1), (8101, 1)]⟩,
    ⟨43670061551, 7, [(2, 1), (5, 2), (17, 1), (51376543, 1)]⟩,
    ⟨113, 3, [(2, 4), (7, 1)]⟩,
    ⟨41, 6, [(2, 3), (5, 1)]⟩,
    ⟨1151, 17, [(2, 1), (5, 2), (23, 1)]⟩,
    ⟨755057, 3, [(2, 4), (41, 1), (1151, 1)]⟩,
    ⟨1327, 3, [(2, 1), (3, 1), (13, 1), (17, 1)]⟩,
    ⟨421987, 2, [(2, 1), (3, 1), (53, 1), (1327, 1)]⟩,
    ⟨13090036741, 10, [(2, 2), (3, 1), (5, 1), (11, 1), (47, 1), (421987, 1)]⟩,
    ⟨3819663927398918131021, 6, [(2, 2), (3, 2), (5, 1), (19, 1), (113, 1), (755057, 1), (13090036741, 1)]⟩,
    ⟨1125266252156850182658904441386709967, 5, [(2, 1), (3373, 1), (43670061551, 1), (3819663927398918131021, 1)]⟩,
    ⟨15778400344354997994418419698270088123916926905054652752758194827714659, 2, [(2, 1), (3, 1), (53, 1), (475709467, 1), (92691255082156974996979, 1), (1125266252156850182658904441386709967, 1)]⟩,
    ⟨4002409555221667393417789825735904156556882819939007885332058136124031650490837864442687629129015664037894272559787, 2, [(2, 1), (3, 2), (11, 1), (23, 1), (47, 1), (10177, 1), (859267, 1), (52437899, 1), (2584487767265781317813, 1), (15778400344354997994418419698270088123916926905054652752758194827714659, 1)]⟩ ]

theorem blsP_prime : blsP.Prime := prime_of_check blsPCert (by decide +kernel)

instance : Fact blsP.Prime := ⟨blsP_prime⟩

def blsRCert : List Step :=
  [ ⟨3, 2, [(2, 1)]⟩,
    ⟨5, 2, [(2, 2)]⟩,
    ⟨11, 2, [(2, 1), (5, 1)]⟩,
    ⟨19, 2, [(2, 1), (3, 2)]⟩,
    ⟨13, 2, [(2, 2), (3, 1)]⟩,
    ⟨53, 2, [(2, 2), (13, 1)]⟩,
    ⟨10177, 7, [(2, 6), (3, 1), (53, 1)]⟩,
    ⟨7, 3, [(2, 1), (3, 1)]⟩,
    ⟨29, 2, [(2, 2), (7, 1)]⟩,
    ⟨523, 2, [(2, 1), (3, 2), (29, 1)]⟩,
    ⟨20921, 3, [(2, 3), (5, 1), (523, 1)]⟩,
    ⟨125527, 5, [(2, 1), (3, 1), (20921, 1)]⟩,
    ⟨17, 3, [(2, 4)]⟩,
    ⟨47737, 5, [(2, 3), (3, 3), (13, 1), (17, 1)]⟩,
    ⟨859267, 2, [(2, 1), (3, 2), (47737, 1)]⟩,
    ⟨23, 5, [(2, 1), (11, 1)]⟩,
    ⟨47, 5, [(2, 1), (23, 1)]⟩,
    ⟨73, 5, [(2, 3), (3, 2)]⟩,
    ⟨1607, 5, [(2, 1), (11, 1), (73, 1)]⟩,
    ⟨906349, 2, [(2, 2), (3, 1), (47, 1), (1607, 1)]⟩,
    ⟨79, 3, [(2, 1), (3, 1), (13, 1)]⟩,
    ⟨2508409, 11, [(2, 3), (3, 4), (7, 2), (79, 1)]⟩,
    ⟨18329, 3, [(2, 3), (29, 1), (79, 1)]⟩,
    ⟨2529403, 2, [(2, 1), (3, 1), (23, 1), (18329, 1)]⟩,
    ⟨43, 3, [(2, 1), (3, 1), (7, 1)]⟩,
    ⟨97, 5, [(2, 5), (3, 1)]⟩,
    ⟨449, 3, [(2, 6), (7, 1)]⟩,
    ⟨609743, 5, [(2, 1), (7, 1), (97, 1), (449, 1)]⟩,
    ⟨52437899, 2, [(2, 1), (43, 1), (609743, 1)]⟩,
    ⟨89, 3, [(2, 3), (11, 1)]⟩,
    ⟨179, 2, [(2, 1), (89, 1)]⟩,
    ⟨359, 7, [(2, 1), (179, 1)]⟩,
    ⟨110573, 3, [(2, 2), (7, 1), (11, 1), (359, 1)]⟩,
    ⟨2653753, 5, [(2, 3), (3, 1), (110573, 1)]⟩,
    ⟨63690073, 7, [(2, 3), (3, 1), (2653753, 1)]⟩,
    ⟨254760293, 2, [(2, 2), (63690073, 1)]⟩,
    ⟨52435875175126190479447740508185965837690552500527637822603658699938581184513, 7, [(2, 32), (3, 1), (11, 1), (19, 1), (10177, 1), (125527, 1), (859267, 1), (906349, 2), (2508409, 1), (2529403, 1), (52437899, 1), (254760293, 2)]⟩ ]

theorem blsR_prime : blsR.Prime := prime_of_check blsRCert (by decide +kernel)

instance : Fact blsR.Prime := ⟨blsR_prime⟩

def bnPCert : List Step :=
  [ ⟨3, 2, [(2, 1)]⟩,
    ⟨13, 2, [(2, 2), (3, 1)]⟩,
    ⟨7, 3, [(2, 1), (3, 1)]⟩,
    ⟨29, 2, [(2, 2), (7, 1)]⟩,
    ⟨5, 2, [(2, 2)]⟩,
    ⟨11, 2, [(2, 1), (5, 1)]⟩,
    ⟨67, 2, [(2, 1), (3, 1), (11, 1)]⟩,
    ⟨19, 2, [(2, 1), (3, 2)]⟩,
    ⟨229, 6, [(2, 2), (3, 1), (19, 1)]⟩,
    ⟨31, 3, [(2, 1), (3, 1), (5, 1)]⟩,
    ⟨311, 17, [(2, 1), (5, 1), (31, 1)]⟩,
    ⟨491, 2, [(2, 1), (5, 1), (7, 2)]⟩,
    ⟨983, 5, [(2, 1), (491, 1)]⟩,
    ⟨5501, 2, [(2, 2), (5, 3), (11, 1)]⟩,
    ⟨11003, 2, [(2, 1), (5501, 1)]⟩,
    ⟨41, 6, [(2, 3), (5, 1)]⟩,
    ⟨3691, 2, [(2, 1), (3, 2), (5, 1), (41, 1)]⟩,
    ⟨17, 3, [(2, 4)]⟩,
    ⟨4999, 3, [(2, 1), (3, 1), (7, 2), (17, 1)]⟩,
    ⟨405928799, 22, [(2, 1), (11, 1), (3691, 1), (4999, 1)]⟩,
    ⟨37, 2, [(2, 2), (3, 2)]⟩,
    ⟨233, 3, [(2, 3), (29, 1)]⟩,
    ⟨327599, 19, [(2, 1), (19, 1), (37, 1), (233, 1)]⟩,
    ⟨11465965001, 3, [(2, 3), (5, 4), (7, 1), (327599, 1)]⟩,
    ⟨271, 6, [(2, 1), (3, 3), (5, 1)]⟩,
    ⟨1853641, 17, [(2, 3), (3, 2), (5, 1), (19, 1), (271, 1)]⟩,
    ⟨109, 6, [(2, 2), (3, 3)]⟩,
    ⟨1231, 3, [(2, 1), (3, 1), (5, 1), (41, 1)]⟩,
    ⟨4562087, 5, [(2, 1), (17, 1), (109, 1), (1231, 1)]⟩,
    ⟨73, 5, [(2, 3), (3, 2)]⟩,
    ⟨89, 3, [(2, 3), (11, 1)]⟩,
    ⟨2221, 2, [(2, 2), (3, 1), (5, 1), (37, 1)]⟩,
    ⟨13327, 3, [(2, 1), (3, 1), (2221, 1)]⟩,
    ⟨173171039, 13, [(2, 1), (73, 1), (89, 1), (13327, 1)]⟩,
    ⟨911, 17, [(2, 1), (5, 1), (7, 1), (13, 1)]⟩,
    ⟨127, 3, [(2, 1), (3, 2), (7, 1)]⟩,
    ⟨3557, 2, [(2, 2), (7, 1), (127, 1)]⟩,
    ⟨1263766531, 10, [(2, 1), (3, 1), (5, 1), (13, 1), (911, 1), (3557, 1)]⟩,
    ⟨35385462869, 2, [(2, 2), (7, 1), (1263766531, 1)]⟩,
    ⟨2480874801745591, 6, [(2, 1), (3, 2), (5, 1), (19, 1), (41, 1), (35385462869, 1)]⟩,
    ⟨13427688667394608761327070753331941386769, 17, [(2, 4), (3, 1), (7, 1), (11, 1), (1853641, 1), (4562087, 1), (173171039, 1), (2480874801745591, 1)]⟩,
    ⟨21888242871839275222246405745257275088696311157297823662689037894645226208583, 3, [(2, 1), (3, 2), (13, 1), (29, 1), (67, 1), (229, 1), (311, 1), (983, 1), (11003, 1), (405928799, 1), (11465965001, 1), (13427688667394608761327070753331941386769, 1)]⟩ ]

theorem bnP_prime : bnP.Prime := prime_of_check bnPCert (by decide +kernel)

instance : Fact bnP.Prime := ⟨bnP_prime⟩

def bnRCert : List Step :=
  [ ⟨3, 2, [(2, 1)]⟩,
    ⟨13, 2, [(2, 2), (3, 1)]⟩,
    ⟨7, 3, [(2, 1), (3, 1)]⟩,
    ⟨29, 2, [(2, 2), (7, 1)]⟩,
    ⟨5, 2, [(2, 2)]⟩,
    ⟨491, 2, [(2, 1), (5, 1), (7, 2)]⟩,
    ⟨983, 5, [(2, 1), (491, 1)]⟩,
    ⟨11, 2, [(2, 1), (5, 1)]⟩,
    ⟨5501, 2, [(2, 2), (5, 3), (11, 1)]⟩,
    ⟨11003, 2, [(2, 1), (5501, 1)]⟩,
    ⟨449, 3, [(2, 6), (7, 1)]⟩,
    ⟨237073, 15, [(2, 4), (3, 1), (11, 1), (449, 1)]⟩,
    ⟨41, 6, [(2, 3), (5, 1)]⟩,
    ⟨3691, 2, [(2, 1), (3, 2), (5, 1), (41, 1)]⟩,
    ⟨17, 3, [(2, 4)]⟩,
    ⟨4999, 3, [(2, 1), (3, 1), (7, 2), (17, 1)]⟩,
    ⟨405928799, 22, [(2, 1), (11, 1), (3691, 1), (4999, 1)]⟩,
    ⟨53, 2, [(2, 2), (13, 1)]⟩,
    ⟨107, 2, [(2, 1), (53, 1)]⟩,
    ⟨661, 2, [(2, 2), (3, 1), (5, 1), (11, 1)]⟩,
    ⟨31, 3, [(2, 1), (3, 1), (5, 1)]⟩,
    ⟨93001, 14, [(2, 3), (3, 1), (5, 3), (31, 1)]⟩,
    ⟨12048837557, 2, [(2, 2), (7, 2), (661, 1), (93001, 1)]⟩,
    ⟨5156902474397, 2, [(2, 2), (107, 1), (12048837557, 1)]⟩,
    ⟨1670836401704629, 2, [(2, 2), (3, 4), (5156902474397, 1)]⟩,
    ⟨137, 3, [(2, 3), (17, 1)]⟩,
    ⟨823, 3, [(2, 1), (3, 1), (137, 1)]⟩,
    ⟨19, 2, [(2, 1), (3, 2)]⟩,
    ⟨23, 5, [(2, 1), (11, 1)]⟩,
    ⟨47, 5, [(2, 1), (23, 1)]⟩,
    ⟨37, 2, [(2, 2), (3, 2)]⟩,
    ⟨223, 3, [(2, 1), (3, 1), (37, 1)]⟩,
    ⟨20963, 2, [(2, 1), (47, 1), (223, 1)]⟩,
    ⟨41927, 5, [(2, 1), (20963, 1)]⟩,
    ⟨1593227, 2, [(2, 1), (19, 1), (41927, 1)]⟩,
    ⟨83, 2, [(2, 1), (41, 1)]⟩,
    ⟨379, 2, [(2, 1), (3, 3), (7, 1)]⟩,
    ⟨409, 21, [(2, 3), (3, 1), (17, 1)]⟩,
    ⟨1637, 2, [(2, 2), (409, 1)]⟩,
    ⟨229, 6, [(2, 2), (3, 1), (19, 1)]⟩,
    ⟨71, 7, [(2, 1), (5, 1), (7, 1)]⟩,
    ⟨853, 2, [(2, 2), (3, 1), (71, 1)]⟩,
    ⟨639533339, 2, [(2, 1), (229, 1), (853, 1), (1637, 1)]⟩,
    ⟨65865678001877903, 5, [(2, 1), (83, 1), (379, 1), (1637, 1), (639533339, 1)]⟩,
    ⟨13818364434197438864469338081, 3, [(2, 5), (5, 1), (823, 1), (1593227, 1), (65865678001877903, 1)]⟩,
    ⟨21888242871839275222246405745257275088548364400416034343698204186575808495617, 5, [(2, 28), (3, 2), (13, 1), (29, 1), (983, 1), (11003, 1), (237073, 1), (405928799, 1), (1670836401704629, 1), (13818364434197438864469338081, 1)]⟩ ]

theorem bnR_prime : bnR.Prime := prime_of_check bnRCert (by decide +kernel)

instance : Fact bnR.Prime := ⟨bnR_prime⟩

theorem no_root {p : Nat} [Fact p.Prime] (h : p % 4 = 3) : ∀ r : ZMod p, r ^ 2 ≠ -1 + 0 * r := by
  intro r hr
  refine ZMod.exists_sq_eq_neg_one_iff.mp ⟨r, ?_⟩ h
  rw [← pow_two, hr, zero_mul, add_zero]

instance : Fact (∀ r : ZMod blsP, r ^ 2 ≠ -1 + 0 * r) := ⟨no_root (by decide +kernel)⟩

instance : Fact (∀ r : ZMod bnP, r ^ 2 ≠ -1 + 0 * r) := ⟨no_root (by decide +kernel)⟩

end Soroban.Curves
