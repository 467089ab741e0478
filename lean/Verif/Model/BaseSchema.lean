import Verif.Model.Basic
/-!
The texts of the schema that is shipped: laurelin/extensions/base_schema.py:50-1085 and laurelin/extensions/netgroups.py:98-116, copied verbatim (generated from the
sources by a script). `EXTENSIBLE_OBJECT` is an `ExtensibleObjectClass`, whose only difference, `allowed_attr`, is used by nothing.
-/
set_option maxRecDepth 100000
namespace Laurelin.BaseSchema
open Laurelin

/-- the specifications of attribute types in base_schema.py, in order -/
def attributeTypes : List Str := [
  -- base_schema.py:63-68 ALIASED_OBJECT_NAME
  str "\n          ( 2.5.4.1 NAME 'aliasedObjectName'\n            EQUALITY distinguishedNameMatch\n            SYNTAX 1.3.6.1.4.1.1466.115.121.1.12\n            SINGLE-VALUE )\n    ",
  -- base_schema.py:72-76 OBJECT_CLASS
  str "\n          ( 2.5.4.0 NAME 'objectClass'\n            EQUALITY objectIdentifierMatch\n            SYNTAX 1.3.6.1.4.1.1466.115.121.1.38 )\n    ",
  -- base_schema.py:78-84 CREATORS_NAME
  str "\n          ( 2.5.18.3 NAME 'creatorsName'\n            EQUALITY distinguishedNameMatch\n            SYNTAX 1.3.6.1.4.1.1466.115.121.1.12\n            SINGLE-VALUE NO-USER-MODIFICATION\n            USAGE directoryOperation )\n    ",
  -- base_schema.py:86-93 CREATE_TIMESTAMP
  str "\n          ( 2.5.18.1 NAME 'createTimestamp'\n            EQUALITY generalizedTimeMatch\n            ORDERING generalizedTimeOrderingMatch\n            SYNTAX 1.3.6.1.4.1.1466.115.121.1.24\n            SINGLE-VALUE NO-USER-MODIFICATION\n            USAGE directoryOperation )\n    ",
  -- base_schema.py:95-101 MODIFIERS_NAME
  str "\n          ( 2.5.18.4 NAME 'modifiersName'\n            EQUALITY distinguishedNameMatch\n            SYNTAX 1.3.6.1.4.1.1466.115.121.1.12\n            SINGLE-VALUE NO-USER-MODIFICATION\n            USAGE directoryOperation )\n    ",
  -- base_schema.py:103-110 MODIFY_TIMESTAMP
  str "\n          ( 2.5.18.2 NAME 'modifyTimestamp'\n            EQUALITY generalizedTimeMatch\n            ORDERING generalizedTimeOrderingMatch\n            SYNTAX 1.3.6.1.4.1.1466.115.121.1.24\n            SINGLE-VALUE NO-USER-MODIFICATION\n            USAGE directoryOperation )\n    ",
  -- base_schema.py:112-118 STRUCTURAL_OBJECT_CLASS
  str "\n          ( 2.5.21.9 NAME 'structuralObjectClass'\n            EQUALITY objectIdentifierMatch\n            SYNTAX 1.3.6.1.4.1.1466.115.121.1.38\n            SINGLE-VALUE NO-USER-MODIFICATION\n            USAGE directoryOperation )\n    ",
  -- base_schema.py:120-126 GOVERNING_STRUCTURAL_RULE
  str "\n          ( 2.5.21.10 NAME 'governingStructureRule'\n            EQUALITY integerMatch\n            SYNTAX 1.3.6.1.4.1.1466.115.121.1.27\n            SINGLE-VALUE NO-USER-MODIFICATION\n            USAGE directoryOperation )\n    ",
  -- base_schema.py:130-136 SUBSCHEMA_SUBENTRY
  str "\n          ( 2.5.18.10 NAME 'subschemaSubentry'\n            EQUALITY distinguishedNameMatch\n            SYNTAX 1.3.6.1.4.1.1466.115.121.1.12\n            SINGLE-VALUE NO-USER-MODIFICATION\n            USAGE directoryOperation )\n    ",
  -- base_schema.py:146-151 OBJECT_CLASSES
  str "\n          ( 2.5.21.6 NAME 'objectClasses'\n            EQUALITY objectIdentifierFirstComponentMatch\n            SYNTAX 1.3.6.1.4.1.1466.115.121.1.37\n            USAGE directoryOperation )\n    ",
  -- base_schema.py:153-158 ATTRIBUTE_TYPES
  str "\n          ( 2.5.21.5 NAME 'attributeTypes'\n            EQUALITY objectIdentifierFirstComponentMatch\n            SYNTAX 1.3.6.1.4.1.1466.115.121.1.3\n            USAGE directoryOperation )\n    ",
  -- base_schema.py:160-165 MATCHING_RULES
  str "\n          ( 2.5.21.4 NAME 'matchingRules'\n            EQUALITY objectIdentifierFirstComponentMatch\n            SYNTAX 1.3.6.1.4.1.1466.115.121.1.30\n            USAGE directoryOperation )\n    ",
  -- base_schema.py:167-172 MATCHING_RULES_USE
  str "\n          ( 2.5.21.8 NAME 'matchingRuleUse'\n            EQUALITY objectIdentifierFirstComponentMatch\n            SYNTAX 1.3.6.1.4.1.1466.115.121.1.31\n            USAGE directoryOperation )\n    ",
  -- base_schema.py:174-179 LDAP_SYNTAXES
  str "\n          ( 1.3.6.1.4.1.1466.101.120.16 NAME 'ldapSyntaxes'\n            EQUALITY objectIdentifierFirstComponentMatch\n            SYNTAX 1.3.6.1.4.1.1466.115.121.1.54\n            USAGE directoryOperation )\n    ",
  -- base_schema.py:181-186 DIT_CONTENT_RULES
  str "\n          ( 2.5.21.2 NAME 'dITContentRules'\n            EQUALITY objectIdentifierFirstComponentMatch\n            SYNTAX 1.3.6.1.4.1.1466.115.121.1.16\n            USAGE directoryOperation )\n    ",
  -- base_schema.py:188-193 DIT_STRUCTURE_RULES
  str "\n          ( 2.5.21.1 NAME 'dITStructureRules'\n            EQUALITY integerFirstComponentMatch\n            SYNTAX 1.3.6.1.4.1.1466.115.121.1.17\n            USAGE directoryOperation )\n    ",
  -- base_schema.py:195-200 NAME_FORMS
  str "\n          ( 2.5.21.7 NAME 'nameForms'\n            EQUALITY objectIdentifierFirstComponentMatch\n            SYNTAX 1.3.6.1.4.1.1466.115.121.1.35\n            USAGE directoryOperation )\n    ",
  -- base_schema.py:212-217 ALT_SERVER
  str "\n          ( 1.3.6.1.4.1.1466.101.120.6 NAME 'altServer'\n            EQUALITY caseExactMatch\n            SYNTAX 1.3.6.1.4.1.1466.115.121.1.26\n            USAGE dSAOperation )\n    ",
  -- base_schema.py:219-224 NAMING_CONTEXTS
  str "\n          ( 1.3.6.1.4.1.1466.101.120.5 NAME 'namingContexts'\n            EQUALITY distinguishedNameMatch\n            SYNTAX 1.3.6.1.4.1.1466.115.121.1.12\n            USAGE dSAOperation )\n    ",
  -- base_schema.py:226-231 SUPPORTED_CONTROL
  str "\n          ( 1.3.6.1.4.1.1466.101.120.13 NAME 'supportedControl'\n            EQUALITY objectIdentifierMatch\n            SYNTAX 1.3.6.1.4.1.1466.115.121.1.38\n            USAGE dSAOperation )\n    ",
  -- base_schema.py:233-238 SUPPORTED_EXTENSION
  str "\n          ( 1.3.6.1.4.1.1466.101.120.7 NAME 'supportedExtension'\n            EQUALITY objectIdentifierMatch\n            SYNTAX 1.3.6.1.4.1.1466.115.121.1.38\n            USAGE dSAOperation )\n    ",
  -- base_schema.py:240-245 SUPPORTED_FEATURES
  str "\n          ( 1.3.6.1.4.1.4203.1.3.5 NAME 'supportedFeatures'\n              EQUALITY objectIdentifierMatch\n              SYNTAX 1.3.6.1.4.1.1466.115.121.1.38\n              USAGE dSAOperation )\n    ",
  -- base_schema.py:247-252 SUPPORTED_LDAP_VERSION
  str "\n          ( 1.3.6.1.4.1.1466.101.120.15 NAME 'supportedLDAPVersion'\n            EQUALITY integerMatch\n            SYNTAX 1.3.6.1.4.1.1466.115.121.1.27\n            USAGE dSAOperation )\n    ",
  -- base_schema.py:254-259 SUPPORTED_SASL_MECHANISMS
  str "\n          ( 1.3.6.1.4.1.1466.101.120.14 NAME 'supportedSASLMechanisms'\n            EQUALITY caseIgnoreMatch\n            SYNTAX 1.3.6.1.4.1.1466.115.121.1.15\n            USAGE dSAOperation )\n    ",
  -- base_schema.py:263-268 BUSINESS_CATEGORY
  str "\n          ( 2.5.4.15 NAME 'businessCategory'\n             EQUALITY caseIgnoreMatch\n             SUBSTR caseIgnoreSubstringsMatch\n             SYNTAX 1.3.6.1.4.1.1466.115.121.1.15 )\n    ",
  -- base_schema.py:270-275 C
  str "\n          ( 2.5.4.6 NAME 'c'\n             SUP name\n             SYNTAX 1.3.6.1.4.1.1466.115.121.1.11\n             SINGLE-VALUE )\n    ",
  -- base_schema.py:277-280 CN
  str "\n          ( 2.5.4.3 NAME 'cn'\n             SUP name )\n    ",
  -- base_schema.py:282-288 DC
  str "\n          ( 0.9.2342.19200300.100.1.25 NAME 'dc'\n             EQUALITY caseIgnoreIA5Match\n             SUBSTR caseIgnoreIA5SubstringsMatch\n             SYNTAX 1.3.6.1.4.1.1466.115.121.1.26\n             SINGLE-VALUE )\n    ",
  -- base_schema.py:290-295 DESCRIPTION
  str "\n          ( 2.5.4.13 NAME 'description'\n             EQUALITY caseIgnoreMatch\n             SUBSTR caseIgnoreSubstringsMatch\n             SYNTAX 1.3.6.1.4.1.1466.115.121.1.15 )\n    ",
  -- base_schema.py:297-302 DESTINATION_INDICATOR
  str "\n          ( 2.5.4.27 NAME 'destinationIndicator'\n             EQUALITY caseIgnoreMatch\n             SUBSTR caseIgnoreSubstringsMatch\n             SYNTAX 1.3.6.1.4.1.1466.115.121.1.44 )\n    ",
  -- base_schema.py:304-308 DISTINGUISHED_NAME
  str "\n          ( 2.5.4.49 NAME 'distinguishedName'\n             EQUALITY distinguishedNameMatch\n             SYNTAX 1.3.6.1.4.1.1466.115.121.1.12 )\n    ",
  -- base_schema.py:310-316 DN_QUALIFIER
  str "\n          ( 2.5.4.46 NAME 'dnQualifier'\n             EQUALITY caseIgnoreMatch\n             ORDERING caseIgnoreOrderingMatch\n             SUBSTR caseIgnoreSubstringsMatch\n             SYNTAX 1.3.6.1.4.1.1466.115.121.1.44 )\n    ",
  -- base_schema.py:318-321 ENHANCED_SEARCH_GUIDE
  str "\n          ( 2.5.4.47 NAME 'enhancedSearchGuide'\n             SYNTAX 1.3.6.1.4.1.1466.115.121.1.21 )\n    ",
  -- base_schema.py:323-326 FACSIMILIE_TELEPHONE_NUMBER
  str "\n          ( 2.5.4.23 NAME 'facsimileTelephoneNumber'\n             SYNTAX 1.3.6.1.4.1.1466.115.121.1.22 )\n    ",
  -- base_schema.py:328-331 GENERATION_QUALIFIER
  str "\n          ( 2.5.4.44 NAME 'generationQualifier'\n             SUP name )\n    ",
  -- base_schema.py:333-336 GIVEN_NAME
  str "\n          ( 2.5.4.42 NAME 'givenName'\n             SUP name )\n    ",
  -- base_schema.py:338-343 HOUSE_IDENTIFIER
  str "\n          ( 2.5.4.51 NAME 'houseIdentifier'\n             EQUALITY caseIgnoreMatch\n             SUBSTR caseIgnoreSubstringsMatch\n             SYNTAX 1.3.6.1.4.1.1466.115.121.1.15 )\n    ",
  -- base_schema.py:345-348 INITIALS
  str "\n          ( 2.5.4.43 NAME 'initials'\n             SUP name )\n    ",
  -- base_schema.py:350-355 INTERNATIONAL_ISDN_NUMBER
  str "\n          ( 2.5.4.25 NAME 'internationalISDNNumber'\n             EQUALITY numericStringMatch\n             SUBSTR numericStringSubstringsMatch\n             SYNTAX 1.3.6.1.4.1.1466.115.121.1.36 )\n    ",
  -- base_schema.py:357-360 L
  str "\n          ( 2.5.4.7 NAME 'l'\n             SUP name )\n    ",
  -- base_schema.py:362-365 MEMBER
  str "\n          ( 2.5.4.31 NAME 'member'\n             SUP distinguishedName )\n    ",
  -- base_schema.py:367-372 NAME
  str "\n          ( 2.5.4.41 NAME 'name'\n             EQUALITY caseIgnoreMatch\n             SUBSTR caseIgnoreSubstringsMatch\n             SYNTAX 1.3.6.1.4.1.1466.115.121.1.15 )\n    ",
  -- base_schema.py:374-377 O
  str "\n          ( 2.5.4.10 NAME 'o'\n             SUP name )\n    ",
  -- base_schema.py:379-382 OU
  str "\n          ( 2.5.4.11 NAME 'ou'\n             SUP name )\n    ",
  -- base_schema.py:384-387 OWNER
  str "\n          ( 2.5.4.32 NAME 'owner'\n             SUP distinguishedName )\n    ",
  -- base_schema.py:389-394 PHYSICAL_DELIVERY_OFFICE_NAME
  str "\n          ( 2.5.4.19 NAME 'physicalDeliveryOfficeName'\n             EQUALITY caseIgnoreMatch\n             SUBSTR caseIgnoreSubstringsMatch\n             SYNTAX 1.3.6.1.4.1.1466.115.121.1.15 )\n    ",
  -- base_schema.py:396-401 POSTAL_ADDRESS
  str "\n          ( 2.5.4.16 NAME 'postalAddress'\n             EQUALITY caseIgnoreListMatch\n             SUBSTR caseIgnoreListSubstringsMatch\n             SYNTAX 1.3.6.1.4.1.1466.115.121.1.41 )\n    ",
  -- base_schema.py:403-408 POSTAL_CODE
  str "\n          ( 2.5.4.17 NAME 'postalCode'\n             EQUALITY caseIgnoreMatch\n             SUBSTR caseIgnoreSubstringsMatch\n             SYNTAX 1.3.6.1.4.1.1466.115.121.1.15 )\n    ",
  -- base_schema.py:410-415 POST_OFFICE_BOX
  str "\n          ( 2.5.4.18 NAME 'postOfficeBox'\n             EQUALITY caseIgnoreMatch\n             SUBSTR caseIgnoreSubstringsMatch\n             SYNTAX 1.3.6.1.4.1.1466.115.121.1.15 )\n    ",
  -- base_schema.py:417-421 PREFERRED_DELIVERY_METHOD
  str "\n          ( 2.5.4.28 NAME 'preferredDeliveryMethod'\n             SYNTAX 1.3.6.1.4.1.1466.115.121.1.14\n             SINGLE-VALUE )\n    ",
  -- base_schema.py:423-427 REGISTERED_ADDRESS
  str "\n          ( 2.5.4.26 NAME 'registeredAddress'\n             SUP postalAddress\n             SYNTAX 1.3.6.1.4.1.1466.115.121.1.41 )\n    ",
  -- base_schema.py:429-432 ROLE_OCCUPANT
  str "\n          ( 2.5.4.33 NAME 'roleOccupant'\n             SUP distinguishedName )\n    ",
  -- base_schema.py:434-437 SEARCH_GUIDE
  str "\n          ( 2.5.4.14 NAME 'searchGuide'\n             SYNTAX 1.3.6.1.4.1.1466.115.121.1.25 )\n    ",
  -- base_schema.py:439-442 SEE_ALSO
  str "\n          ( 2.5.4.34 NAME 'seeAlso'\n             SUP distinguishedName )\n    ",
  -- base_schema.py:444-449 SERIAL_NUMBER
  str "\n          ( 2.5.4.5 NAME 'serialNumber'\n             EQUALITY caseIgnoreMatch\n             SUBSTR caseIgnoreSubstringsMatch\n             SYNTAX 1.3.6.1.4.1.1466.115.121.1.44 )\n    ",
  -- base_schema.py:451-454 SN
  str "\n          ( 2.5.4.4 NAME 'sn'\n             SUP name )\n    ",
  -- base_schema.py:456-459 ST
  str "\n          ( 2.5.4.8 NAME 'st'\n             SUP name )\n    ",
  -- base_schema.py:461-466 STREET
  str "\n          ( 2.5.4.9 NAME 'street'\n             EQUALITY caseIgnoreMatch\n             SUBSTR caseIgnoreSubstringsMatch\n             SYNTAX 1.3.6.1.4.1.1466.115.121.1.15 )\n    ",
  -- base_schema.py:468-473 TELEPHONE_NUMBER
  str "\n          ( 2.5.4.20 NAME 'telephoneNumber'\n             EQUALITY telephoneNumberMatch\n             SUBSTR telephoneNumberSubstringsMatch\n             SYNTAX 1.3.6.1.4.1.1466.115.121.1.50 )\n    ",
  -- base_schema.py:475-478 TELETEX_TERMINAL_IDENTIFIER
  str "\n          ( 2.5.4.22 NAME 'teletexTerminalIdentifier'\n             SYNTAX 1.3.6.1.4.1.1466.115.121.1.51 )\n    ",
  -- base_schema.py:480-483 TELEX_NUMBER
  str "\n          ( 2.5.4.21 NAME 'telexNumber'\n             SYNTAX 1.3.6.1.4.1.1466.115.121.1.52 )\n    ",
  -- base_schema.py:485-488 TITLE
  str "\n          ( 2.5.4.12 NAME 'title'\n             SUP name )\n    ",
  -- base_schema.py:490-495 UID
  str "\n          ( 0.9.2342.19200300.100.1.1 NAME 'uid'\n             EQUALITY caseIgnoreMatch\n             SUBSTR caseIgnoreSubstringsMatch\n             SYNTAX 1.3.6.1.4.1.1466.115.121.1.15 )\n    ",
  -- base_schema.py:497-501 UNIQUE_MEMBER
  str "\n          ( 2.5.4.50 NAME 'uniqueMember'\n             EQUALITY uniqueMemberMatch\n             SYNTAX 1.3.6.1.4.1.1466.115.121.1.34 )\n    ",
  -- base_schema.py:503-507 USER_PASSWORD
  str "\n          ( 2.5.4.35 NAME 'userPassword'\n             EQUALITY octetStringMatch\n             SYNTAX 1.3.6.1.4.1.1466.115.121.1.40 )\n    ",
  -- base_schema.py:509-514 X121_ADDRESS
  str "\n          ( 2.5.4.24 NAME 'x121Address'\n             EQUALITY numericStringMatch\n             SUBSTR numericStringSubstringsMatch\n             SYNTAX 1.3.6.1.4.1.1466.115.121.1.36 )\n    ",
  -- base_schema.py:516-520 X500_UNIQUE_IDENTIFIER
  str "\n          ( 2.5.4.45 NAME 'x500UniqueIdentifier'\n             EQUALITY bitStringMatch\n             SYNTAX 1.3.6.1.4.1.1466.115.121.1.6 )\n    ",
  -- base_schema.py:696-702 CAR_LICENSE
  str "\n        ( 2.16.840.1.113730.3.1.1 NAME 'carLicense'\n          DESC 'vehicle license or registration plate'\n          EQUALITY caseIgnoreMatch\n          SUBSTR caseIgnoreSubstringsMatch\n          SYNTAX 1.3.6.1.4.1.1466.115.121.1.15 )\n    ",
  -- base_schema.py:704-711 DEPARTMENT_NUMBER
  str "\n        ( 2.16.840.1.113730.3.1.2\n          NAME 'departmentNumber'\n          DESC 'identifies a department within an organization'\n          EQUALITY caseIgnoreMatch\n          SUBSTR caseIgnoreSubstringsMatch\n          SYNTAX 1.3.6.1.4.1.1466.115.121.1.15 )\n    ",
  -- base_schema.py:713-721 DISPLAY_NAME
  str "\n      ( 2.16.840.1.113730.3.1.241\n        NAME 'displayName'\n        DESC 'preferred name of a person to be used when displaying entries'\n        EQUALITY caseIgnoreMatch\n        SUBSTR caseIgnoreSubstringsMatch\n        SYNTAX 1.3.6.1.4.1.1466.115.121.1.15\n        SINGLE-VALUE )\n    ",
  -- base_schema.py:723-731 EMPLOYEE_NUMBER
  str "\n        ( 2.16.840.1.113730.3.1.3\n          NAME 'employeeNumber'\n          DESC 'numerically identifies an employee within an organization'\n          EQUALITY caseIgnoreMatch\n          SUBSTR caseIgnoreSubstringsMatch\n          SYNTAX 1.3.6.1.4.1.1466.115.121.1.15\n          SINGLE-VALUE )\n    ",
  -- base_schema.py:733-740 EMPLOYEE_TYPE
  str "\n        ( 2.16.840.1.113730.3.1.4\n          NAME 'employeeType'\n          DESC 'type of employment for a person'\n          EQUALITY caseIgnoreMatch\n          SUBSTR caseIgnoreSubstringsMatch\n          SYNTAX 1.3.6.1.4.1.1466.115.121.1.15 )\n    ",
  -- base_schema.py:742-747 JPEG_PHOTO
  str "\n        ( 0.9.2342.19200300.100.1.60\n          NAME 'jpegPhoto'\n          DESC 'a JPEG image'\n          SYNTAX 1.3.6.1.4.1.1466.115.121.1.28 )\n    ",
  -- base_schema.py:749-757 PREFERRED_LANGUAGE
  str "\n        ( 2.16.840.1.113730.3.1.39\n          NAME 'preferredLanguage'\n          DESC 'preferred written or spoken language for a person'\n          EQUALITY caseIgnoreMatch\n          SUBSTR caseIgnoreSubstringsMatch\n          SYNTAX 1.3.6.1.4.1.1466.115.121.1.15\n          SINGLE-VALUE )\n    ",
  -- base_schema.py:759-764 USER_SMIME_CERTIFICATE
  str "\n        ( 2.16.840.1.113730.3.1.40\n          NAME 'userSMIMECertificate'\n          DESC 'PKCS#7 SignedData used to support S/MIME'\n          SYNTAX 1.3.6.1.4.1.1466.115.121.1.5 )\n    ",
  -- base_schema.py:766-771 USER_PKCS12
  str "\n    ( 2.16.840.1.113730.3.1.216\n      NAME 'userPKCS12'\n      DESC 'PKCS #12 PFX PDU for exchange of personal identity information'\n      SYNTAX 1.3.6.1.4.1.1466.115.121.1.5 )\n    ",
  -- base_schema.py:803-807 USER_CERTIFICATE
  str "\n        ( 2.5.4.36\n          NAME 'userCertificate'\n          SYNTAX 1.3.6.1.4.1.1466.115.121.1.8 )\n    ",
  -- base_schema.py:811-816 AUDIO
  str "\n        ( 0.9.2342.19200300.100.1.55\n          NAME 'audio'\n          EQUALITY octetStringMatch\n          SYNTAX 1.3.6.1.4.1.1466.115.121.1.40{250000} )\n    ",
  -- base_schema.py:820-825 PHOTO
  str "\n        ( 0.9.2342.19200300.100.1.7\n          NAME 'photo'\n          EQUALITY octetStringMatch\n          SYNTAX 1.3.6.1.4.1.1466.115.121.1.5 )\n    ",
  -- base_schema.py:829-835 LABELED_URI
  str "\n        ( 1.3.6.1.4.1.250.1.57\n          NAME 'labeledURI'\n          EQUALITY caseExactMatch\n          SUBSTR caseExactSubstringsMatch\n          SYNTAX 1.3.6.1.4.1.1466.115.121.1.15 )\n    ",
  -- base_schema.py:839-844 ASSOCIATED_DOMAIN
  str "\n          ( 0.9.2342.19200300.100.1.37 NAME 'associatedDomain'\n            EQUALITY caseIgnoreIA5Match\n            SUBSTR caseIgnoreIA5SubstringsMatch\n            SYNTAX 1.3.6.1.4.1.1466.115.121.1.26 )\n    ",
  -- base_schema.py:846-850 ASSOCIATED_NAME
  str "\n          ( 0.9.2342.19200300.100.1.38 NAME 'associatedName'\n            EQUALITY distinguishedNameMatch\n            SYNTAX 1.3.6.1.4.1.1466.115.121.1.12 )\n    ",
  -- base_schema.py:852-857 BUILDING_NAME
  str "\n          ( 0.9.2342.19200300.100.1.48 NAME 'buildingName'\n            EQUALITY caseIgnoreMatch\n            SUBSTR caseIgnoreSubstringsMatch\n            SYNTAX 1.3.6.1.4.1.1466.115.121.1.15{256} )\n    ",
  -- base_schema.py:859-864 CO
  str "\n          ( 0.9.2342.19200300.100.1.43 NAME 'co'\n            EQUALITY caseIgnoreMatch\n            SUBSTR caseIgnoreSubstringsMatch\n            SYNTAX 1.3.6.1.4.1.1466.115.121.1.15 )\n    ",
  -- base_schema.py:866-870 DOCUMENT_AUTHOR
  str "\n          ( 0.9.2342.19200300.100.1.14 NAME 'documentAuthor'\n            EQUALITY distinguishedNameMatch\n            SYNTAX 1.3.6.1.4.1.1466.115.121.1.12 )\n    ",
  -- base_schema.py:872-877 DOCUMENT_IDENTIFIER
  str "\n          ( 0.9.2342.19200300.100.1.11 NAME 'documentIdentifier'\n            EQUALITY caseIgnoreMatch\n            SUBSTR caseIgnoreSubstringsMatch\n            SYNTAX 1.3.6.1.4.1.1466.115.121.1.15{256} )\n    ",
  -- base_schema.py:879-884 DOCUMENT_LOCATION
  str "\n          ( 0.9.2342.19200300.100.1.15 NAME 'documentLocation'\n            EQUALITY caseIgnoreMatch\n            SUBSTR caseIgnoreSubstringsMatch\n            SYNTAX 1.3.6.1.4.1.1466.115.121.1.15{256} )\n    ",
  -- base_schema.py:886-891 DOCUMENT_PUBLISHER
  str "\n          ( 0.9.2342.19200300.100.1.56 NAME 'documentPublisher'\n            EQUALITY caseIgnoreMatch\n            SUBSTR caseIgnoreSubstringsMatch\n            SYNTAX 1.3.6.1.4.1.1466.115.121.1.15 )\n    ",
  -- base_schema.py:893-898 DOCUMENT_TITLE
  str "\n          ( 0.9.2342.19200300.100.1.12 NAME 'documentTitle'\n            EQUALITY caseIgnoreMatch\n            SUBSTR caseIgnoreSubstringsMatch\n            SYNTAX 1.3.6.1.4.1.1466.115.121.1.15{256} )\n    ",
  -- base_schema.py:900-905 DOCUMENT_VERSION
  str "\n          ( 0.9.2342.19200300.100.1.13 NAME 'documentVersion'\n            EQUALITY caseIgnoreMatch\n            SUBSTR caseIgnoreSubstringsMatch\n            SYNTAX 1.3.6.1.4.1.1466.115.121.1.15{256} )\n    ",
  -- base_schema.py:907-912 DRINK
  str "\n          ( 0.9.2342.19200300.100.1.5 NAME 'drink'\n            EQUALITY caseIgnoreMatch\n            SUBSTR caseIgnoreSubstringsMatch\n            SYNTAX 1.3.6.1.4.1.1466.115.121.1.15{256} )\n    ",
  -- base_schema.py:914-919 HOME_PHONE
  str "\n          ( 0.9.2342.19200300.100.1.20 NAME 'homePhone'\n            EQUALITY telephoneNumberMatch\n            SUBSTR telephoneNumberSubstringsMatch\n            SYNTAX 1.3.6.1.4.1.1466.115.121.1.50 )\n    ",
  -- base_schema.py:921-926 HOME_POSTAL_ADDRESS
  str "\n          ( 0.9.2342.19200300.100.1.39 NAME 'homePostalAddress'\n            EQUALITY caseIgnoreListMatch\n            SUBSTR caseIgnoreListSubstringsMatch\n            SYNTAX 1.3.6.1.4.1.1466.115.121.1.41 )\n    ",
  -- base_schema.py:928-933 HOST
  str "\n          ( 0.9.2342.19200300.100.1.9 NAME 'host'\n            EQUALITY caseIgnoreMatch\n            SUBSTR caseIgnoreSubstringsMatch\n            SYNTAX 1.3.6.1.4.1.1466.115.121.1.15{256} )\n    ",
  -- base_schema.py:935-940 INFO
  str "\n          ( 0.9.2342.19200300.100.1.4 NAME 'info'\n            EQUALITY caseIgnoreMatch\n            SUBSTR caseIgnoreSubstringsMatch\n            SYNTAX 1.3.6.1.4.1.1466.115.121.1.15{2048} )\n    ",
  -- base_schema.py:942-947 MAIL
  str "\n          ( 0.9.2342.19200300.100.1.3 NAME 'mail'\n            EQUALITY caseIgnoreIA5Match\n            SUBSTR caseIgnoreIA5SubstringsMatch\n            SYNTAX 1.3.6.1.4.1.1466.115.121.1.26{256} )\n    ",
  -- base_schema.py:949-953 MANAGER
  str "\n          ( 0.9.2342.19200300.100.1.10 NAME 'manager'\n            EQUALITY distinguishedNameMatch\n            SYNTAX 1.3.6.1.4.1.1466.115.121.1.12 )\n    ",
  -- base_schema.py:955-960 MOBILE
  str "\n          ( 0.9.2342.19200300.100.1.41 NAME 'mobile'\n            EQUALITY telephoneNumberMatch\n            SUBSTR telephoneNumberSubstringsMatch\n            SYNTAX 1.3.6.1.4.1.1466.115.121.1.50 )\n    ",
  -- base_schema.py:962-967 ORGANIZATIONAL_STATUS
  str "\n          ( 0.9.2342.19200300.100.1.45 NAME 'organizationalStatus'\n            EQUALITY caseIgnoreMatch\n            SUBSTR caseIgnoreSubstringsMatch\n            SYNTAX 1.3.6.1.4.1.1466.115.121.1.15{256} )\n    ",
  -- base_schema.py:969-974 PAGER
  str "\n          ( 0.9.2342.19200300.100.1.42 NAME 'pager'\n            EQUALITY telephoneNumberMatch\n            SUBSTR telephoneNumberSubstringsMatch\n            SYNTAX 1.3.6.1.4.1.1466.115.121.1.50 )\n    ",
  -- base_schema.py:976-981 PERSONAL_TITLE
  str "\n          ( 0.9.2342.19200300.100.1.40 NAME 'personalTitle'\n            EQUALITY caseIgnoreMatch\n            SUBSTR caseIgnoreSubstringsMatch\n            SYNTAX 1.3.6.1.4.1.1466.115.121.1.15{256} )\n    ",
  -- base_schema.py:983-988 ROOM_NUMBER
  str "\n          ( 0.9.2342.19200300.100.1.6 NAME 'roomNumber'\n            EQUALITY caseIgnoreMatch\n            SUBSTR caseIgnoreSubstringsMatch\n            SYNTAX 1.3.6.1.4.1.1466.115.121.1.15{256} )\n    ",
  -- base_schema.py:990-994 SECRETARY
  str "\n          ( 0.9.2342.19200300.100.1.21 NAME 'secretary'\n            EQUALITY distinguishedNameMatch\n            SYNTAX 1.3.6.1.4.1.1466.115.121.1.12 )\n    ",
  -- base_schema.py:996-1001 UNIQUE_IDENTIFIER
  str "\n          ( 0.9.2342.19200300.100.1.44 NAME 'uniqueIdentifier'\n            EQUALITY caseIgnoreMatch\n            SUBSTR caseIgnoreSubstringsMatch\n            SYNTAX 1.3.6.1.4.1.1466.115.121.1.15{256} )\n    ",
  -- base_schema.py:1003-1008 USER_CLASS
  str "\n          ( 0.9.2342.19200300.100.1.8 NAME 'userClass'\n            EQUALITY caseIgnoreMatch\n            SUBSTR caseIgnoreSubstringsMatch\n            SYNTAX 1.3.6.1.4.1.1466.115.121.1.15{256} )\n    "]

/-- those in netgroups.py:104-116 -/
def netgroupTypes : List Str := [
  -- netgroups.py:104-109 MEMBER_NIS_NETGROUP
  str "\n    ( 1.3.6.1.1.1.1.13 NAME 'memberNisNetgroup'\n      EQUALITY caseExactIA5Match\n      SUBSTR caseExactIA5SubstringsMatch\n      SYNTAX 1.3.6.1.4.1.1466.115.121.1.26 )\n    ",
  -- netgroups.py:111-116 NIS_NETGROUP_TRIPLE
  str "\n    ( 1.3.6.1.1.1.1.14 NAME 'nisNetgroupTriple'\n      DESC 'Netgroup triple'\n      EQUALITY caseExactMatch\n      SYNTAX 1.3.6.1.1.1.0.0 )\n    "]

/-- the specifications of object classes in base_schema.py, in order -/
def objectClasses : List Str := [
  -- base_schema.py:53-53 TOP
  str "( 2.5.6.0 NAME 'top' ABSTRACT MUST objectClass )",
  -- base_schema.py:57-61 ALIAS
  str "\n          ( 2.5.6.1 NAME 'alias'\n            SUP top STRUCTURAL\n            MUST aliasedObjectName )\n    ",
  -- base_schema.py:138-144 SUBSCHEMA
  str "\n          ( 2.5.20.1 NAME 'subschema' AUXILIARY\n            MAY ( dITStructureRules $ nameForms $ ditContentRules $\n              objectClasses $ attributeTypes $ matchingRules $\n              matchingRuleUse ) )\n\n    ",
  -- base_schema.py:204-207 EXTENSIBLE_OBJECT
  str "\n          ( 1.3.6.1.4.1.1466.101.120.111 NAME 'extensibleObject'\n                  SUP top AUXILIARY )\n    ",
  -- base_schema.py:524-533 APPLICATION_PROCESS
  str "\n          ( 2.5.6.11 NAME 'applicationProcess'\n             SUP top\n             STRUCTURAL\n             MUST cn\n             MAY ( seeAlso $\n                   ou $\n                   l $\n                   description ) )\n    ",
  -- base_schema.py:535-542 COUNTRY
  str "\n          ( 2.5.6.2 NAME 'country'\n             SUP top\n             STRUCTURAL\n             MUST c\n             MAY ( searchGuide $\n                   description ) )\n    ",
  -- base_schema.py:544-549 DC_OBJECT
  str "\n          ( 1.3.6.1.4.1.1466.344 NAME 'dcObject'\n             SUP top\n             AUXILIARY\n             MUST dc )\n    ",
  -- base_schema.py:551-563 DEVICE
  str "\n          ( 2.5.6.14 NAME 'device'\n             SUP top\n             STRUCTURAL\n             MUST cn\n             MAY ( serialNumber $\n                   seeAlso $\n                   owner $\n                   ou $\n                   o $\n                   l $\n                   description ) )\n    ",
  -- base_schema.py:565-577 GROUP_OF_NAMES
  str "\n          ( 2.5.6.9 NAME 'groupOfNames'\n             SUP top\n             STRUCTURAL\n             MUST ( member $\n                   cn )\n             MAY ( businessCategory $\n                   seeAlso $\n                   owner $\n                   ou $\n                   o $\n                   description ) )\n    ",
  -- base_schema.py:579-591 GROUP_OF_UNIQUE_NAMES
  str "\n          ( 2.5.6.17 NAME 'groupOfUniqueNames'\n             SUP top\n             STRUCTURAL\n             MUST ( uniqueMember $\n                   cn )\n             MAY ( businessCategory $\n                   seeAlso $\n                   owner $\n                   ou $\n                   o $\n                   description ) )\n    ",
  -- base_schema.py:593-603 LOCALITY
  str "\n          ( 2.5.6.3 NAME 'locality'\n             SUP top\n             STRUCTURAL\n             MAY ( street $\n                   seeAlso $\n                   searchGuide $\n                   st $\n                   l $\n                   description ) )\n    ",
  -- base_schema.py:605-618 ORGANIZATION
  str "\n          ( 2.5.6.4 NAME 'organization'\n             SUP top\n             STRUCTURAL\n             MUST o\n             MAY ( userPassword $ searchGuide $ seeAlso $\n                   businessCategory $ x121Address $ registeredAddress $\n                   destinationIndicator $ preferredDeliveryMethod $\n                   telexNumber $ teletexTerminalIdentifier $\n                   telephoneNumber $ internationalISDNNumber $\n                   facsimileTelephoneNumber $ street $ postOfficeBox $\n                   postalCode $ postalAddress $ physicalDeliveryOfficeName $\n                   st $ l $ description ) )\n    ",
  -- base_schema.py:620-631 ORGANIZATIONAL_PERSON
  str "\n          ( 2.5.6.7 NAME 'organizationalPerson'\n             SUP person\n             STRUCTURAL\n             MAY ( title $ x121Address $ registeredAddress $\n                   destinationIndicator $ preferredDeliveryMethod $\n                   telexNumber $ teletexTerminalIdentifier $\n                   telephoneNumber $ internationalISDNNumber $\n                   facsimileTelephoneNumber $ street $ postOfficeBox $\n                   postalCode $ postalAddress $ physicalDeliveryOfficeName $\n                   ou $ st $ l ) )\n    ",
  -- base_schema.py:633-646 ORGANIZATIONAL_ROLE
  str "\n          ( 2.5.6.8 NAME 'organizationalRole'\n             SUP top\n             STRUCTURAL\n             MUST cn\n             MAY ( x121Address $ registeredAddress $ destinationIndicator $\n                   preferredDeliveryMethod $ telexNumber $\n                   teletexTerminalIdentifier $ telephoneNumber $\n                   internationalISDNNumber $ facsimileTelephoneNumber $\n                   seeAlso $ roleOccupant $ preferredDeliveryMethod $\n                   street $ postOfficeBox $ postalCode $ postalAddress $\n                   physicalDeliveryOfficeName $ ou $ st $ l $\n                   description ) )\n    ",
  -- base_schema.py:648-660 ORGANIZATIONAL_UNIT
  str "\n          ( 2.5.6.5 NAME 'organizationalUnit'\n             SUP top\n             STRUCTURAL\n             MUST ou\n             MAY ( businessCategory $ description $ destinationIndicator $\n                   facsimileTelephoneNumber $ internationalISDNNumber $ l $\n                   physicalDeliveryOfficeName $ postalAddress $ postalCode $\n                   postOfficeBox $ preferredDeliveryMethod $\n                   registeredAddress $ searchGuide $ seeAlso $ st $ street $\n                   telephoneNumber $ teletexTerminalIdentifier $\n                   telexNumber $ userPassword $ x121Address ) )\n    ",
  -- base_schema.py:662-671 PERSON
  str "\n          ( 2.5.6.6 NAME 'person'\n             SUP top\n             STRUCTURAL\n             MUST ( sn $\n                   cn )\n             MAY ( userPassword $\n                   telephoneNumber $\n                   seeAlso $ description ) )\n    ",
  -- base_schema.py:673-685 RESIDENTIAL_PERSON
  str "\n          ( 2.5.6.10 NAME 'residentialPerson'\n             SUP person\n             STRUCTURAL\n             MUST l\n             MAY ( businessCategory $ x121Address $ registeredAddress $\n                   destinationIndicator $ preferredDeliveryMethod $\n                   telexNumber $ teletexTerminalIdentifier $\n                   telephoneNumber $ internationalISDNNumber $\n                   facsimileTelephoneNumber $ preferredDeliveryMethod $\n                   street $ postOfficeBox $ postalCode $ postalAddress $\n                   physicalDeliveryOfficeName $ st $ l ) )\n    ",
  -- base_schema.py:687-692 UID_OBJECT
  str "\n          ( 1.3.6.1.1.3.1 NAME 'uidObject'\n             SUP top\n             AUXILIARY\n             MUST uid )\n    ",
  -- base_schema.py:775-799 INET_ORG_PERSON
  str "\n    ( 2.16.840.1.113730.3.2.2\n        NAME 'inetOrgPerson'\n        SUP organizationalPerson\n        STRUCTURAL\n        MUST (\n            cn $ objectClass $ sn\n        )\n        MAY (\n            audio $ businessCategory $ carLicense $ departmentNumber $\n            displayName $ employeeNumber $ employeeType $ givenName $\n            homePhone $ homePostalAddress $ initials $ jpegPhoto $\n            labeledURI $ mail $ manager $ mobile $ o $ pager $\n            photo $ roomNumber $ secretary $ uid $ userCertificate $\n            x500uniqueIdentifier $ preferredLanguage $\n            userSMIMECertificate $ userPKCS12 $\n            description $ destinationIndicator $ facsimileTelephoneNumber $\n            internationaliSDNNumber $ l $ ou $ physicalDeliveryOfficeName $\n            postalAddress $ postalCode $ postOfficeBox $\n            preferredDeliveryMethod $ registeredAddress $ seeAlso $\n            st $ street $ telephoneNumber $ teletexTerminalIdentifier $\n            telexNumber $ title $ userPassword $ x121Address\n        )\n    )\n    ",
  -- base_schema.py:1012-1017 ACCOUNT
  str "\n          ( 0.9.2342.19200300.100.4.5 NAME 'account'\n            SUP top STRUCTURAL\n            MUST uid\n            MAY ( description $ seeAlso $ l $ o $ ou $ host ) )\n    ",
  -- base_schema.py:1019-1026 DOCUMENT
  str "\n          ( 0.9.2342.19200300.100.4.6 NAME 'document'\n            SUP top STRUCTURAL\n            MUST documentIdentifier\n            MAY ( cn $ description $ seeAlso $ l $ o $ ou $\n              documentTitle $ documentVersion $ documentAuthor $\n              documentLocation $ documentPublisher ) )\n    ",
  -- base_schema.py:1028-1034 DOCUMENT_SERIES
  str "\n          ( 0.9.2342.19200300.100.4.9 NAME 'documentSeries'\n            SUP top STRUCTURAL\n            MUST cn\n            MAY ( description $ l $ o $ ou $ seeAlso $\n              telephonenumber ) )\n    ",
  -- base_schema.py:1036-1048 DOMAIN
  str "\n          ( 0.9.2342.19200300.100.4.13 NAME 'domain'\n            SUP top STRUCTURAL\n            MUST dc\n            MAY ( userPassword $ searchGuide $ seeAlso $ businessCategory $\n              x121Address $ registeredAddress $ destinationIndicator $\n              preferredDeliveryMethod $ telexNumber $\n              teletexTerminalIdentifier $ telephoneNumber $\n              internationaliSDNNumber $ facsimileTelephoneNumber $ street $\n              postOfficeBox $ postalCode $ postalAddress $\n              physicalDeliveryOfficeName $ st $ l $ description $ o $\n              associatedName ) )\n    ",
  -- base_schema.py:1050-1054 DOMAIN_RELATED_OBJECT
  str "\n          ( 0.9.2342.19200300.100.4.17 NAME 'domainRelatedObject'\n            SUP top AUXILIARY\n            MUST associatedDomain )\n    ",
  -- base_schema.py:1056-1060 FRIENDLY_COUNTRY
  str "\n          ( 0.9.2342.19200300.100.4.18 NAME 'friendlyCountry'\n            SUP country STRUCTURAL\n            MUST co )\n    ",
  -- base_schema.py:1062-1071 RFC822_LOCAL_PORT
  str "\n          ( 0.9.2342.19200300.100.4.14 NAME 'rFC822localPart'\n            SUP domain STRUCTURAL\n            MAY ( cn $ description $ destinationIndicator $\n              facsimileTelephoneNumber $ internationaliSDNNumber $\n              physicalDeliveryOfficeName $ postalAddress $ postalCode $\n              postOfficeBox $ preferredDeliveryMethod $ registeredAddress $\n              seeAlso $ sn $ street $ telephoneNumber $\n              teletexTerminalIdentifier $ telexNumber $ x121Address ) )\n    ",
  -- base_schema.py:1073-1078 ROOM
  str "\n          ( 0.9.2342.19200300.100.4.7 NAME 'room'\n            SUP top STRUCTURAL\n            MUST cn\n            MAY ( roomNumber $ description $ seeAlso $ telephoneNumber ) )\n    ",
  -- base_schema.py:1080-1084 SIMPLE_SECURITY_OBJECT
  str "\n          ( 0.9.2342.19200300.100.4.19 NAME 'simpleSecurityObject'\n            SUP top AUXILIARY\n            MUST userPassword )\n    "]

/-- that in netgroups.py:98-102 -/
def netgroupClasses : List Str := [
  -- netgroups.py:98-102 NIS_NETGROUP
  str "\n    ( 1.3.6.1.1.1.2.8 NAME 'nisNetgroup' SUP top STRUCTURAL\n      MUST cn\n      MAY ( nisNetgroupTriple $ memberNisNetgroup $ description ) )\n    "]

end Laurelin.BaseSchema
