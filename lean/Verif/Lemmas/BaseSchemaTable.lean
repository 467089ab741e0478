import Verif.Lemmas.SchemaRender
import Verif.Model.BaseSchema
/-! What the shipped descriptions say, in the order of the texts (generated; checked against the texts below). -/
namespace Laurelin.Render
open Laurelin
set_option maxRecDepth 100000

/-- the attribute types of base_schema.py -/
def baseTypes : List AT := [
  ⟨str "2.5.4.1", [str "aliasedObjectName"], none, false, none, some (str "distinguishedNameMatch"), none, none, some (str "1.3.6.1.4.1.1466.115.121.1.12", none), true, false, false, none⟩,
  ⟨str "2.5.4.0", [str "objectClass"], none, false, none, some (str "objectIdentifierMatch"), none, none, some (str "1.3.6.1.4.1.1466.115.121.1.38", none), false, false, false, none⟩,
  ⟨str "2.5.18.3", [str "creatorsName"], none, false, none, some (str "distinguishedNameMatch"), none, none, some (str "1.3.6.1.4.1.1466.115.121.1.12", none), true, false, true, some (str "directoryOperation")⟩,
  ⟨str "2.5.18.1", [str "createTimestamp"], none, false, none, some (str "generalizedTimeMatch"), some (str "generalizedTimeOrderingMatch"), none, some (str "1.3.6.1.4.1.1466.115.121.1.24", none), true, false, true, some (str "directoryOperation")⟩,
  ⟨str "2.5.18.4", [str "modifiersName"], none, false, none, some (str "distinguishedNameMatch"), none, none, some (str "1.3.6.1.4.1.1466.115.121.1.12", none), true, false, true, some (str "directoryOperation")⟩,
  ⟨str "2.5.18.2", [str "modifyTimestamp"], none, false, none, some (str "generalizedTimeMatch"), some (str "generalizedTimeOrderingMatch"), none, some (str "1.3.6.1.4.1.1466.115.121.1.24", none), true, false, true, some (str "directoryOperation")⟩,
  ⟨str "2.5.21.9", [str "structuralObjectClass"], none, false, none, some (str "objectIdentifierMatch"), none, none, some (str "1.3.6.1.4.1.1466.115.121.1.38", none), true, false, true, some (str "directoryOperation")⟩,
  ⟨str "2.5.21.10", [str "governingStructureRule"], none, false, none, some (str "integerMatch"), none, none, some (str "1.3.6.1.4.1.1466.115.121.1.27", none), true, false, true, some (str "directoryOperation")⟩,
  ⟨str "2.5.18.10", [str "subschemaSubentry"], none, false, none, some (str "distinguishedNameMatch"), none, none, some (str "1.3.6.1.4.1.1466.115.121.1.12", none), true, false, true, some (str "directoryOperation")⟩,
  ⟨str "2.5.21.6", [str "objectClasses"], none, false, none, some (str "objectIdentifierFirstComponentMatch"), none, none, some (str "1.3.6.1.4.1.1466.115.121.1.37", none), false, false, false, some (str "directoryOperation")⟩,
  ⟨str "2.5.21.5", [str "attributeTypes"], none, false, none, some (str "objectIdentifierFirstComponentMatch"), none, none, some (str "1.3.6.1.4.1.1466.115.121.1.3", none), false, false, false, some (str "directoryOperation")⟩,
  ⟨str "2.5.21.4", [str "matchingRules"], none, false, none, some (str "objectIdentifierFirstComponentMatch"), none, none, some (str "1.3.6.1.4.1.1466.115.121.1.30", none), false, false, false, some (str "directoryOperation")⟩,
  ⟨str "2.5.21.8", [str "matchingRuleUse"], none, false, none, some (str "objectIdentifierFirstComponentMatch"), none, none, some (str "1.3.6.1.4.1.1466.115.121.1.31", none), false, false, false, some (str "directoryOperation")⟩,
  ⟨str "1.3.6.1.4.1.1466.101.120.16", [str "ldapSyntaxes"], none, false, none, some (str "objectIdentifierFirstComponentMatch"), none, none, some (str "1.3.6.1.4.1.1466.115.121.1.54", none), false, false, false, some (str "directoryOperation")⟩,
  ⟨str "2.5.21.2", [str "dITContentRules"], none, false, none, some (str "objectIdentifierFirstComponentMatch"), none, none, some (str "1.3.6.1.4.1.1466.115.121.1.16", none), false, false, false, some (str "directoryOperation")⟩,
  ⟨str "2.5.21.1", [str "dITStructureRules"], none, false, none, some (str "integerFirstComponentMatch"), none, none, some (str "1.3.6.1.4.1.1466.115.121.1.17", none), false, false, false, some (str "directoryOperation")⟩,
  ⟨str "2.5.21.7", [str "nameForms"], none, false, none, some (str "objectIdentifierFirstComponentMatch"), none, none, some (str "1.3.6.1.4.1.1466.115.121.1.35", none), false, false, false, some (str "directoryOperation")⟩,
  ⟨str "1.3.6.1.4.1.1466.101.120.6", [str "altServer"], none, false, none, some (str "caseExactMatch"), none, none, some (str "1.3.6.1.4.1.1466.115.121.1.26", none), false, false, false, some (str "dSAOperation")⟩,
  ⟨str "1.3.6.1.4.1.1466.101.120.5", [str "namingContexts"], none, false, none, some (str "distinguishedNameMatch"), none, none, some (str "1.3.6.1.4.1.1466.115.121.1.12", none), false, false, false, some (str "dSAOperation")⟩,
  ⟨str "1.3.6.1.4.1.1466.101.120.13", [str "supportedControl"], none, false, none, some (str "objectIdentifierMatch"), none, none, some (str "1.3.6.1.4.1.1466.115.121.1.38", none), false, false, false, some (str "dSAOperation")⟩,
  ⟨str "1.3.6.1.4.1.1466.101.120.7", [str "supportedExtension"], none, false, none, some (str "objectIdentifierMatch"), none, none, some (str "1.3.6.1.4.1.1466.115.121.1.38", none), false, false, false, some (str "dSAOperation")⟩,
  ⟨str "1.3.6.1.4.1.4203.1.3.5", [str "supportedFeatures"], none, false, none, some (str "objectIdentifierMatch"), none, none, some (str "1.3.6.1.4.1.1466.115.121.1.38", none), false, false, false, some (str "dSAOperation")⟩,
  ⟨str "1.3.6.1.4.1.1466.101.120.15", [str "supportedLDAPVersion"], none, false, none, some (str "integerMatch"), none, none, some (str "1.3.6.1.4.1.1466.115.121.1.27", none), false, false, false, some (str "dSAOperation")⟩,
  ⟨str "1.3.6.1.4.1.1466.101.120.14", [str "supportedSASLMechanisms"], none, false, none, some (str "caseIgnoreMatch"), none, none, some (str "1.3.6.1.4.1.1466.115.121.1.15", none), false, false, false, some (str "dSAOperation")⟩,
  ⟨str "2.5.4.15", [str "businessCategory"], none, false, none, some (str "caseIgnoreMatch"), none, some (str "caseIgnoreSubstringsMatch"), some (str "1.3.6.1.4.1.1466.115.121.1.15", none), false, false, false, none⟩,
  ⟨str "2.5.4.6", [str "c"], none, false, some (str "name"), none, none, none, some (str "1.3.6.1.4.1.1466.115.121.1.11", none), true, false, false, none⟩,
  ⟨str "2.5.4.3", [str "cn"], none, false, some (str "name"), none, none, none, none, false, false, false, none⟩,
  ⟨str "0.9.2342.19200300.100.1.25", [str "dc"], none, false, none, some (str "caseIgnoreIA5Match"), none, some (str "caseIgnoreIA5SubstringsMatch"), some (str "1.3.6.1.4.1.1466.115.121.1.26", none), true, false, false, none⟩,
  ⟨str "2.5.4.13", [str "description"], none, false, none, some (str "caseIgnoreMatch"), none, some (str "caseIgnoreSubstringsMatch"), some (str "1.3.6.1.4.1.1466.115.121.1.15", none), false, false, false, none⟩,
  ⟨str "2.5.4.27", [str "destinationIndicator"], none, false, none, some (str "caseIgnoreMatch"), none, some (str "caseIgnoreSubstringsMatch"), some (str "1.3.6.1.4.1.1466.115.121.1.44", none), false, false, false, none⟩,
  ⟨str "2.5.4.49", [str "distinguishedName"], none, false, none, some (str "distinguishedNameMatch"), none, none, some (str "1.3.6.1.4.1.1466.115.121.1.12", none), false, false, false, none⟩,
  ⟨str "2.5.4.46", [str "dnQualifier"], none, false, none, some (str "caseIgnoreMatch"), some (str "caseIgnoreOrderingMatch"), some (str "caseIgnoreSubstringsMatch"), some (str "1.3.6.1.4.1.1466.115.121.1.44", none), false, false, false, none⟩,
  ⟨str "2.5.4.47", [str "enhancedSearchGuide"], none, false, none, none, none, none, some (str "1.3.6.1.4.1.1466.115.121.1.21", none), false, false, false, none⟩,
  ⟨str "2.5.4.23", [str "facsimileTelephoneNumber"], none, false, none, none, none, none, some (str "1.3.6.1.4.1.1466.115.121.1.22", none), false, false, false, none⟩,
  ⟨str "2.5.4.44", [str "generationQualifier"], none, false, some (str "name"), none, none, none, none, false, false, false, none⟩,
  ⟨str "2.5.4.42", [str "givenName"], none, false, some (str "name"), none, none, none, none, false, false, false, none⟩,
  ⟨str "2.5.4.51", [str "houseIdentifier"], none, false, none, some (str "caseIgnoreMatch"), none, some (str "caseIgnoreSubstringsMatch"), some (str "1.3.6.1.4.1.1466.115.121.1.15", none), false, false, false, none⟩,
  ⟨str "2.5.4.43", [str "initials"], none, false, some (str "name"), none, none, none, none, false, false, false, none⟩,
  ⟨str "2.5.4.25", [str "internationalISDNNumber"], none, false, none, some (str "numericStringMatch"), none, some (str "numericStringSubstringsMatch"), some (str "1.3.6.1.4.1.1466.115.121.1.36", none), false, false, false, none⟩,
  ⟨str "2.5.4.7", [str "l"], none, false, some (str "name"), none, none, none, none, false, false, false, none⟩,
  ⟨str "2.5.4.31", [str "member"], none, false, some (str "distinguishedName"), none, none, none, none, false, false, false, none⟩,
  ⟨str "2.5.4.41", [str "name"], none, false, none, some (str "caseIgnoreMatch"), none, some (str "caseIgnoreSubstringsMatch"), some (str "1.3.6.1.4.1.1466.115.121.1.15", none), false, false, false, none⟩,
  ⟨str "2.5.4.10", [str "o"], none, false, some (str "name"), none, none, none, none, false, false, false, none⟩,
  ⟨str "2.5.4.11", [str "ou"], none, false, some (str "name"), none, none, none, none, false, false, false, none⟩,
  ⟨str "2.5.4.32", [str "owner"], none, false, some (str "distinguishedName"), none, none, none, none, false, false, false, none⟩,
  ⟨str "2.5.4.19", [str "physicalDeliveryOfficeName"], none, false, none, some (str "caseIgnoreMatch"), none, some (str "caseIgnoreSubstringsMatch"), some (str "1.3.6.1.4.1.1466.115.121.1.15", none), false, false, false, none⟩,
  ⟨str "2.5.4.16", [str "postalAddress"], none, false, none, some (str "caseIgnoreListMatch"), none, some (str "caseIgnoreListSubstringsMatch"), some (str "1.3.6.1.4.1.1466.115.121.1.41", none), false, false, false, none⟩,
  ⟨str "2.5.4.17", [str "postalCode"], none, false, none, some (str "caseIgnoreMatch"), none, some (str "caseIgnoreSubstringsMatch"), some (str "1.3.6.1.4.1.1466.115.121.1.15", none), false, false, false, none⟩,
  ⟨str "2.5.4.18", [str "postOfficeBox"], none, false, none, some (str "caseIgnoreMatch"), none, some (str "caseIgnoreSubstringsMatch"), some (str "1.3.6.1.4.1.1466.115.121.1.15", none), false, false, false, none⟩,
  ⟨str "2.5.4.28", [str "preferredDeliveryMethod"], none, false, none, none, none, none, some (str "1.3.6.1.4.1.1466.115.121.1.14", none), true, false, false, none⟩,
  ⟨str "2.5.4.26", [str "registeredAddress"], none, false, some (str "postalAddress"), none, none, none, some (str "1.3.6.1.4.1.1466.115.121.1.41", none), false, false, false, none⟩,
  ⟨str "2.5.4.33", [str "roleOccupant"], none, false, some (str "distinguishedName"), none, none, none, none, false, false, false, none⟩,
  ⟨str "2.5.4.14", [str "searchGuide"], none, false, none, none, none, none, some (str "1.3.6.1.4.1.1466.115.121.1.25", none), false, false, false, none⟩,
  ⟨str "2.5.4.34", [str "seeAlso"], none, false, some (str "distinguishedName"), none, none, none, none, false, false, false, none⟩,
  ⟨str "2.5.4.5", [str "serialNumber"], none, false, none, some (str "caseIgnoreMatch"), none, some (str "caseIgnoreSubstringsMatch"), some (str "1.3.6.1.4.1.1466.115.121.1.44", none), false, false, false, none⟩,
  ⟨str "2.5.4.4", [str "sn"], none, false, some (str "name"), none, none, none, none, false, false, false, none⟩,
  ⟨str "2.5.4.8", [str "st"], none, false, some (str "name"), none, none, none, none, false, false, false, none⟩,
  ⟨str "2.5.4.9", [str "street"], none, false, none, some (str "caseIgnoreMatch"), none, some (str "caseIgnoreSubstringsMatch"), some (str "1.3.6.1.4.1.1466.115.121.1.15", none), false, false, false, none⟩,
  ⟨str "2.5.4.20", [str "telephoneNumber"], none, false, none, some (str "telephoneNumberMatch"), none, some (str "telephoneNumberSubstringsMatch"), some (str "1.3.6.1.4.1.1466.115.121.1.50", none), false, false, false, none⟩,
  ⟨str "2.5.4.22", [str "teletexTerminalIdentifier"], none, false, none, none, none, none, some (str "1.3.6.1.4.1.1466.115.121.1.51", none), false, false, false, none⟩,
  ⟨str "2.5.4.21", [str "telexNumber"], none, false, none, none, none, none, some (str "1.3.6.1.4.1.1466.115.121.1.52", none), false, false, false, none⟩,
  ⟨str "2.5.4.12", [str "title"], none, false, some (str "name"), none, none, none, none, false, false, false, none⟩,
  ⟨str "0.9.2342.19200300.100.1.1", [str "uid"], none, false, none, some (str "caseIgnoreMatch"), none, some (str "caseIgnoreSubstringsMatch"), some (str "1.3.6.1.4.1.1466.115.121.1.15", none), false, false, false, none⟩,
  ⟨str "2.5.4.50", [str "uniqueMember"], none, false, none, some (str "uniqueMemberMatch"), none, none, some (str "1.3.6.1.4.1.1466.115.121.1.34", none), false, false, false, none⟩,
  ⟨str "2.5.4.35", [str "userPassword"], none, false, none, some (str "octetStringMatch"), none, none, some (str "1.3.6.1.4.1.1466.115.121.1.40", none), false, false, false, none⟩,
  ⟨str "2.5.4.24", [str "x121Address"], none, false, none, some (str "numericStringMatch"), none, some (str "numericStringSubstringsMatch"), some (str "1.3.6.1.4.1.1466.115.121.1.36", none), false, false, false, none⟩,
  ⟨str "2.5.4.45", [str "x500UniqueIdentifier"], none, false, none, some (str "bitStringMatch"), none, none, some (str "1.3.6.1.4.1.1466.115.121.1.6", none), false, false, false, none⟩,
  ⟨str "2.16.840.1.113730.3.1.1", [str "carLicense"], some (str "vehicle license or registration plate"), false, none, some (str "caseIgnoreMatch"), none, some (str "caseIgnoreSubstringsMatch"), some (str "1.3.6.1.4.1.1466.115.121.1.15", none), false, false, false, none⟩,
  ⟨str "2.16.840.1.113730.3.1.2", [str "departmentNumber"], some (str "identifies a department within an organization"), false, none, some (str "caseIgnoreMatch"), none, some (str "caseIgnoreSubstringsMatch"), some (str "1.3.6.1.4.1.1466.115.121.1.15", none), false, false, false, none⟩,
  ⟨str "2.16.840.1.113730.3.1.241", [str "displayName"], some (str "preferred name of a person to be used when displaying entries"), false, none, some (str "caseIgnoreMatch"), none, some (str "caseIgnoreSubstringsMatch"), some (str "1.3.6.1.4.1.1466.115.121.1.15", none), true, false, false, none⟩,
  ⟨str "2.16.840.1.113730.3.1.3", [str "employeeNumber"], some (str "numerically identifies an employee within an organization"), false, none, some (str "caseIgnoreMatch"), none, some (str "caseIgnoreSubstringsMatch"), some (str "1.3.6.1.4.1.1466.115.121.1.15", none), true, false, false, none⟩,
  ⟨str "2.16.840.1.113730.3.1.4", [str "employeeType"], some (str "type of employment for a person"), false, none, some (str "caseIgnoreMatch"), none, some (str "caseIgnoreSubstringsMatch"), some (str "1.3.6.1.4.1.1466.115.121.1.15", none), false, false, false, none⟩,
  ⟨str "0.9.2342.19200300.100.1.60", [str "jpegPhoto"], some (str "a JPEG image"), false, none, none, none, none, some (str "1.3.6.1.4.1.1466.115.121.1.28", none), false, false, false, none⟩,
  ⟨str "2.16.840.1.113730.3.1.39", [str "preferredLanguage"], some (str "preferred written or spoken language for a person"), false, none, some (str "caseIgnoreMatch"), none, some (str "caseIgnoreSubstringsMatch"), some (str "1.3.6.1.4.1.1466.115.121.1.15", none), true, false, false, none⟩,
  ⟨str "2.16.840.1.113730.3.1.40", [str "userSMIMECertificate"], some (str "PKCS#7 SignedData used to support S/MIME"), false, none, none, none, none, some (str "1.3.6.1.4.1.1466.115.121.1.5", none), false, false, false, none⟩,
  ⟨str "2.16.840.1.113730.3.1.216", [str "userPKCS12"], some (str "PKCS #12 PFX PDU for exchange of personal identity information"), false, none, none, none, none, some (str "1.3.6.1.4.1.1466.115.121.1.5", none), false, false, false, none⟩,
  ⟨str "2.5.4.36", [str "userCertificate"], none, false, none, none, none, none, some (str "1.3.6.1.4.1.1466.115.121.1.8", none), false, false, false, none⟩,
  ⟨str "0.9.2342.19200300.100.1.55", [str "audio"], none, false, none, some (str "octetStringMatch"), none, none, some (str "1.3.6.1.4.1.1466.115.121.1.40", some (str "250000")), false, false, false, none⟩,
  ⟨str "0.9.2342.19200300.100.1.7", [str "photo"], none, false, none, some (str "octetStringMatch"), none, none, some (str "1.3.6.1.4.1.1466.115.121.1.5", none), false, false, false, none⟩,
  ⟨str "1.3.6.1.4.1.250.1.57", [str "labeledURI"], none, false, none, some (str "caseExactMatch"), none, some (str "caseExactSubstringsMatch"), some (str "1.3.6.1.4.1.1466.115.121.1.15", none), false, false, false, none⟩,
  ⟨str "0.9.2342.19200300.100.1.37", [str "associatedDomain"], none, false, none, some (str "caseIgnoreIA5Match"), none, some (str "caseIgnoreIA5SubstringsMatch"), some (str "1.3.6.1.4.1.1466.115.121.1.26", none), false, false, false, none⟩,
  ⟨str "0.9.2342.19200300.100.1.38", [str "associatedName"], none, false, none, some (str "distinguishedNameMatch"), none, none, some (str "1.3.6.1.4.1.1466.115.121.1.12", none), false, false, false, none⟩,
  ⟨str "0.9.2342.19200300.100.1.48", [str "buildingName"], none, false, none, some (str "caseIgnoreMatch"), none, some (str "caseIgnoreSubstringsMatch"), some (str "1.3.6.1.4.1.1466.115.121.1.15", some (str "256")), false, false, false, none⟩,
  ⟨str "0.9.2342.19200300.100.1.43", [str "co"], none, false, none, some (str "caseIgnoreMatch"), none, some (str "caseIgnoreSubstringsMatch"), some (str "1.3.6.1.4.1.1466.115.121.1.15", none), false, false, false, none⟩,
  ⟨str "0.9.2342.19200300.100.1.14", [str "documentAuthor"], none, false, none, some (str "distinguishedNameMatch"), none, none, some (str "1.3.6.1.4.1.1466.115.121.1.12", none), false, false, false, none⟩,
  ⟨str "0.9.2342.19200300.100.1.11", [str "documentIdentifier"], none, false, none, some (str "caseIgnoreMatch"), none, some (str "caseIgnoreSubstringsMatch"), some (str "1.3.6.1.4.1.1466.115.121.1.15", some (str "256")), false, false, false, none⟩,
  ⟨str "0.9.2342.19200300.100.1.15", [str "documentLocation"], none, false, none, some (str "caseIgnoreMatch"), none, some (str "caseIgnoreSubstringsMatch"), some (str "1.3.6.1.4.1.1466.115.121.1.15", some (str "256")), false, false, false, none⟩,
  ⟨str "0.9.2342.19200300.100.1.56", [str "documentPublisher"], none, false, none, some (str "caseIgnoreMatch"), none, some (str "caseIgnoreSubstringsMatch"), some (str "1.3.6.1.4.1.1466.115.121.1.15", none), false, false, false, none⟩,
  ⟨str "0.9.2342.19200300.100.1.12", [str "documentTitle"], none, false, none, some (str "caseIgnoreMatch"), none, some (str "caseIgnoreSubstringsMatch"), some (str "1.3.6.1.4.1.1466.115.121.1.15", some (str "256")), false, false, false, none⟩,
  ⟨str "0.9.2342.19200300.100.1.13", [str "documentVersion"], none, false, none, some (str "caseIgnoreMatch"), none, some (str "caseIgnoreSubstringsMatch"), some (str "1.3.6.1.4.1.1466.115.121.1.15", some (str "256")), false, false, false, none⟩,
  ⟨str "0.9.2342.19200300.100.1.5", [str "drink"], none, false, none, some (str "caseIgnoreMatch"), none, some (str "caseIgnoreSubstringsMatch"), some (str "1.3.6.1.4.1.1466.115.121.1.15", some (str "256")), false, false, false, none⟩,
  ⟨str "0.9.2342.19200300.100.1.20", [str "homePhone"], none, false, none, some (str "telephoneNumberMatch"), none, some (str "telephoneNumberSubstringsMatch"), some (str "1.3.6.1.4.1.1466.115.121.1.50", none), false, false, false, none⟩,
  ⟨str "0.9.2342.19200300.100.1.39", [str "homePostalAddress"], none, false, none, some (str "caseIgnoreListMatch"), none, some (str "caseIgnoreListSubstringsMatch"), some (str "1.3.6.1.4.1.1466.115.121.1.41", none), false, false, false, none⟩,
  ⟨str "0.9.2342.19200300.100.1.9", [str "host"], none, false, none, some (str "caseIgnoreMatch"), none, some (str "caseIgnoreSubstringsMatch"), some (str "1.3.6.1.4.1.1466.115.121.1.15", some (str "256")), false, false, false, none⟩,
  ⟨str "0.9.2342.19200300.100.1.4", [str "info"], none, false, none, some (str "caseIgnoreMatch"), none, some (str "caseIgnoreSubstringsMatch"), some (str "1.3.6.1.4.1.1466.115.121.1.15", some (str "2048")), false, false, false, none⟩,
  ⟨str "0.9.2342.19200300.100.1.3", [str "mail"], none, false, none, some (str "caseIgnoreIA5Match"), none, some (str "caseIgnoreIA5SubstringsMatch"), some (str "1.3.6.1.4.1.1466.115.121.1.26", some (str "256")), false, false, false, none⟩,
  ⟨str "0.9.2342.19200300.100.1.10", [str "manager"], none, false, none, some (str "distinguishedNameMatch"), none, none, some (str "1.3.6.1.4.1.1466.115.121.1.12", none), false, false, false, none⟩,
  ⟨str "0.9.2342.19200300.100.1.41", [str "mobile"], none, false, none, some (str "telephoneNumberMatch"), none, some (str "telephoneNumberSubstringsMatch"), some (str "1.3.6.1.4.1.1466.115.121.1.50", none), false, false, false, none⟩,
  ⟨str "0.9.2342.19200300.100.1.45", [str "organizationalStatus"], none, false, none, some (str "caseIgnoreMatch"), none, some (str "caseIgnoreSubstringsMatch"), some (str "1.3.6.1.4.1.1466.115.121.1.15", some (str "256")), false, false, false, none⟩,
  ⟨str "0.9.2342.19200300.100.1.42", [str "pager"], none, false, none, some (str "telephoneNumberMatch"), none, some (str "telephoneNumberSubstringsMatch"), some (str "1.3.6.1.4.1.1466.115.121.1.50", none), false, false, false, none⟩,
  ⟨str "0.9.2342.19200300.100.1.40", [str "personalTitle"], none, false, none, some (str "caseIgnoreMatch"), none, some (str "caseIgnoreSubstringsMatch"), some (str "1.3.6.1.4.1.1466.115.121.1.15", some (str "256")), false, false, false, none⟩,
  ⟨str "0.9.2342.19200300.100.1.6", [str "roomNumber"], none, false, none, some (str "caseIgnoreMatch"), none, some (str "caseIgnoreSubstringsMatch"), some (str "1.3.6.1.4.1.1466.115.121.1.15", some (str "256")), false, false, false, none⟩,
  ⟨str "0.9.2342.19200300.100.1.21", [str "secretary"], none, false, none, some (str "distinguishedNameMatch"), none, none, some (str "1.3.6.1.4.1.1466.115.121.1.12", none), false, false, false, none⟩,
  ⟨str "0.9.2342.19200300.100.1.44", [str "uniqueIdentifier"], none, false, none, some (str "caseIgnoreMatch"), none, some (str "caseIgnoreSubstringsMatch"), some (str "1.3.6.1.4.1.1466.115.121.1.15", some (str "256")), false, false, false, none⟩,
  ⟨str "0.9.2342.19200300.100.1.8", [str "userClass"], none, false, none, some (str "caseIgnoreMatch"), none, some (str "caseIgnoreSubstringsMatch"), some (str "1.3.6.1.4.1.1466.115.121.1.15", some (str "256")), false, false, false, none⟩]

/-- the attribute types of netgroups.py -/
def netgroupTypes : List AT := [
  ⟨str "1.3.6.1.1.1.1.13", [str "memberNisNetgroup"], none, false, none, some (str "caseExactIA5Match"), none, some (str "caseExactIA5SubstringsMatch"), some (str "1.3.6.1.4.1.1466.115.121.1.26", none), false, false, false, none⟩,
  ⟨str "1.3.6.1.1.1.1.14", [str "nisNetgroupTriple"], some (str "Netgroup triple"), false, none, some (str "caseExactMatch"), none, none, some (str "1.3.6.1.1.1.0.0", none), false, false, false, none⟩]

/-- the object classes of base_schema.py -/
def baseClasses : List OC := [
  ⟨str "2.5.6.0", [str "top"], none, false, [], some (str "ABSTRACT"), [str "objectClass"], []⟩,
  ⟨str "2.5.6.1", [str "alias"], none, false, [str "top"], some (str "STRUCTURAL"), [str "aliasedObjectName"], []⟩,
  ⟨str "2.5.20.1", [str "subschema"], none, false, [], some (str "AUXILIARY"), [], [str "dITStructureRules", str "nameForms", str "ditContentRules", str "objectClasses", str "attributeTypes", str "matchingRules", str "matchingRuleUse"]⟩,
  ⟨str "1.3.6.1.4.1.1466.101.120.111", [str "extensibleObject"], none, false, [str "top"], some (str "AUXILIARY"), [], []⟩,
  ⟨str "2.5.6.11", [str "applicationProcess"], none, false, [str "top"], some (str "STRUCTURAL"), [str "cn"], [str "seeAlso", str "ou", str "l", str "description"]⟩,
  ⟨str "2.5.6.2", [str "country"], none, false, [str "top"], some (str "STRUCTURAL"), [str "c"], [str "searchGuide", str "description"]⟩,
  ⟨str "1.3.6.1.4.1.1466.344", [str "dcObject"], none, false, [str "top"], some (str "AUXILIARY"), [str "dc"], []⟩,
  ⟨str "2.5.6.14", [str "device"], none, false, [str "top"], some (str "STRUCTURAL"), [str "cn"], [str "serialNumber", str "seeAlso", str "owner", str "ou", str "o", str "l", str "description"]⟩,
  ⟨str "2.5.6.9", [str "groupOfNames"], none, false, [str "top"], some (str "STRUCTURAL"), [str "member", str "cn"], [str "businessCategory", str "seeAlso", str "owner", str "ou", str "o", str "description"]⟩,
  ⟨str "2.5.6.17", [str "groupOfUniqueNames"], none, false, [str "top"], some (str "STRUCTURAL"), [str "uniqueMember", str "cn"], [str "businessCategory", str "seeAlso", str "owner", str "ou", str "o", str "description"]⟩,
  ⟨str "2.5.6.3", [str "locality"], none, false, [str "top"], some (str "STRUCTURAL"), [], [str "street", str "seeAlso", str "searchGuide", str "st", str "l", str "description"]⟩,
  ⟨str "2.5.6.4", [str "organization"], none, false, [str "top"], some (str "STRUCTURAL"), [str "o"], [str "userPassword", str "searchGuide", str "seeAlso", str "businessCategory", str "x121Address", str "registeredAddress", str "destinationIndicator", str "preferredDeliveryMethod", str "telexNumber", str "teletexTerminalIdentifier", str "telephoneNumber", str "internationalISDNNumber", str "facsimileTelephoneNumber", str "street", str "postOfficeBox", str "postalCode", str "postalAddress", str "physicalDeliveryOfficeName", str "st", str "l", str "description"]⟩,
  ⟨str "2.5.6.7", [str "organizationalPerson"], none, false, [str "person"], some (str "STRUCTURAL"), [], [str "title", str "x121Address", str "registeredAddress", str "destinationIndicator", str "preferredDeliveryMethod", str "telexNumber", str "teletexTerminalIdentifier", str "telephoneNumber", str "internationalISDNNumber", str "facsimileTelephoneNumber", str "street", str "postOfficeBox", str "postalCode", str "postalAddress", str "physicalDeliveryOfficeName", str "ou", str "st", str "l"]⟩,
  ⟨str "2.5.6.8", [str "organizationalRole"], none, false, [str "top"], some (str "STRUCTURAL"), [str "cn"], [str "x121Address", str "registeredAddress", str "destinationIndicator", str "preferredDeliveryMethod", str "telexNumber", str "teletexTerminalIdentifier", str "telephoneNumber", str "internationalISDNNumber", str "facsimileTelephoneNumber", str "seeAlso", str "roleOccupant", str "preferredDeliveryMethod", str "street", str "postOfficeBox", str "postalCode", str "postalAddress", str "physicalDeliveryOfficeName", str "ou", str "st", str "l", str "description"]⟩,
  ⟨str "2.5.6.5", [str "organizationalUnit"], none, false, [str "top"], some (str "STRUCTURAL"), [str "ou"], [str "businessCategory", str "description", str "destinationIndicator", str "facsimileTelephoneNumber", str "internationalISDNNumber", str "l", str "physicalDeliveryOfficeName", str "postalAddress", str "postalCode", str "postOfficeBox", str "preferredDeliveryMethod", str "registeredAddress", str "searchGuide", str "seeAlso", str "st", str "street", str "telephoneNumber", str "teletexTerminalIdentifier", str "telexNumber", str "userPassword", str "x121Address"]⟩,
  ⟨str "2.5.6.6", [str "person"], none, false, [str "top"], some (str "STRUCTURAL"), [str "sn", str "cn"], [str "userPassword", str "telephoneNumber", str "seeAlso", str "description"]⟩,
  ⟨str "2.5.6.10", [str "residentialPerson"], none, false, [str "person"], some (str "STRUCTURAL"), [str "l"], [str "businessCategory", str "x121Address", str "registeredAddress", str "destinationIndicator", str "preferredDeliveryMethod", str "telexNumber", str "teletexTerminalIdentifier", str "telephoneNumber", str "internationalISDNNumber", str "facsimileTelephoneNumber", str "preferredDeliveryMethod", str "street", str "postOfficeBox", str "postalCode", str "postalAddress", str "physicalDeliveryOfficeName", str "st", str "l"]⟩,
  ⟨str "1.3.6.1.1.3.1", [str "uidObject"], none, false, [str "top"], some (str "AUXILIARY"), [str "uid"], []⟩,
  ⟨str "2.16.840.1.113730.3.2.2", [str "inetOrgPerson"], none, false, [str "organizationalPerson"], some (str "STRUCTURAL"), [str "cn", str "objectClass", str "sn"], [str "audio", str "businessCategory", str "carLicense", str "departmentNumber", str "displayName", str "employeeNumber", str "employeeType", str "givenName", str "homePhone", str "homePostalAddress", str "initials", str "jpegPhoto", str "labeledURI", str "mail", str "manager", str "mobile", str "o", str "pager", str "photo", str "roomNumber", str "secretary", str "uid", str "userCertificate", str "x500uniqueIdentifier", str "preferredLanguage", str "userSMIMECertificate", str "userPKCS12", str "description", str "destinationIndicator", str "facsimileTelephoneNumber", str "internationaliSDNNumber", str "l", str "ou", str "physicalDeliveryOfficeName", str "postalAddress", str "postalCode", str "postOfficeBox", str "preferredDeliveryMethod", str "registeredAddress", str "seeAlso", str "st", str "street", str "telephoneNumber", str "teletexTerminalIdentifier", str "telexNumber", str "title", str "userPassword", str "x121Address"]⟩,
  ⟨str "0.9.2342.19200300.100.4.5", [str "account"], none, false, [str "top"], some (str "STRUCTURAL"), [str "uid"], [str "description", str "seeAlso", str "l", str "o", str "ou", str "host"]⟩,
  ⟨str "0.9.2342.19200300.100.4.6", [str "document"], none, false, [str "top"], some (str "STRUCTURAL"), [str "documentIdentifier"], [str "cn", str "description", str "seeAlso", str "l", str "o", str "ou", str "documentTitle", str "documentVersion", str "documentAuthor", str "documentLocation", str "documentPublisher"]⟩,
  ⟨str "0.9.2342.19200300.100.4.9", [str "documentSeries"], none, false, [str "top"], some (str "STRUCTURAL"), [str "cn"], [str "description", str "l", str "o", str "ou", str "seeAlso", str "telephonenumber"]⟩,
  ⟨str "0.9.2342.19200300.100.4.13", [str "domain"], none, false, [str "top"], some (str "STRUCTURAL"), [str "dc"], [str "userPassword", str "searchGuide", str "seeAlso", str "businessCategory", str "x121Address", str "registeredAddress", str "destinationIndicator", str "preferredDeliveryMethod", str "telexNumber", str "teletexTerminalIdentifier", str "telephoneNumber", str "internationaliSDNNumber", str "facsimileTelephoneNumber", str "street", str "postOfficeBox", str "postalCode", str "postalAddress", str "physicalDeliveryOfficeName", str "st", str "l", str "description", str "o", str "associatedName"]⟩,
  ⟨str "0.9.2342.19200300.100.4.17", [str "domainRelatedObject"], none, false, [str "top"], some (str "AUXILIARY"), [str "associatedDomain"], []⟩,
  ⟨str "0.9.2342.19200300.100.4.18", [str "friendlyCountry"], none, false, [str "country"], some (str "STRUCTURAL"), [str "co"], []⟩,
  ⟨str "0.9.2342.19200300.100.4.14", [str "rFC822localPart"], none, false, [str "domain"], some (str "STRUCTURAL"), [], [str "cn", str "description", str "destinationIndicator", str "facsimileTelephoneNumber", str "internationaliSDNNumber", str "physicalDeliveryOfficeName", str "postalAddress", str "postalCode", str "postOfficeBox", str "preferredDeliveryMethod", str "registeredAddress", str "seeAlso", str "sn", str "street", str "telephoneNumber", str "teletexTerminalIdentifier", str "telexNumber", str "x121Address"]⟩,
  ⟨str "0.9.2342.19200300.100.4.7", [str "room"], none, false, [str "top"], some (str "STRUCTURAL"), [str "cn"], [str "roomNumber", str "description", str "seeAlso", str "telephoneNumber"]⟩,
  ⟨str "0.9.2342.19200300.100.4.19", [str "simpleSecurityObject"], none, false, [str "top"], some (str "AUXILIARY"), [str "userPassword"], []⟩]

/-- the object class of netgroups.py -/
def netgroupClasses : List OC := [
  ⟨str "1.3.6.1.1.1.2.8", [str "nisNetgroup"], none, false, [str "top"], some (str "STRUCTURAL"), [str "cn"], [str "nisNetgroupTriple", str "memberNisNetgroup", str "description"]⟩]

theorem base_types_text : BaseSchema.attributeTypes.map SchemaSpec.collapse = baseTypes.map AT.text := by decide +kernel
theorem base_types_ok : ∀ a ∈ baseTypes, a.ok = true := by decide +kernel
theorem netgroup_types_text : BaseSchema.netgroupTypes.map SchemaSpec.collapse = netgroupTypes.map AT.text := by decide +kernel
theorem netgroup_types_ok : ∀ a ∈ netgroupTypes, a.ok = true := by decide +kernel
theorem base_classes_text : BaseSchema.objectClasses.map SchemaSpec.collapse = baseClasses.map OC.text := by decide +kernel
theorem base_classes_ok : ∀ a ∈ baseClasses, a.ok = true := by decide +kernel
theorem netgroup_classes_text : BaseSchema.netgroupClasses.map SchemaSpec.collapse = netgroupClasses.map OC.text := by decide +kernel
theorem netgroup_classes_ok : ∀ a ∈ netgroupClasses, a.ok = true := by decide +kernel

end Laurelin.Render
